import Verif.Build.Routes
/-! Concrete cases of C85–C90. -/
namespace TR

/-- two routing layers: horizontal layer 2 with tracks at y = 0, 10, …, 40 and vertical layer 4 with tracks at
x = 0, 10, …, 40 -/
def exGTech : GTech where
  layers := [2, 4]
  hor := fun l => l == 2
  top := 4
  botRoute := 2
  topRoute := 4
  onGrid := fun _ => false
  nonPref := true
  pats := fun l => if l = 2 then [(false, ⟨0, 5, 10⟩)] else if l = 4 then [(true, ⟨0, 5, 10⟩)] else []
  pitch := fun _ => 10

/-- a wire on a track of layer 2 up to an off-track via, an off-track wire on layer 4, and an off-track access
point -/
def exBObjs : List BObj :=
  [.wire 2 ⟨10, 10⟩ ⟨23, 10⟩, .via 2 4 ⟨23, 10⟩, .wire 4 ⟨23, 10⟩ ⟨23, 20⟩, .ap 2 ⟨15, 26⟩]

def exBGrid : Grid := buildGrid exGTech ⟨⟨0, 0⟩, ⟨40, 40⟩⟩ ⟨⟨-5, -5⟩, ⟨45, 45⟩⟩ exBObjs false true

/-- the hypotheses of the theorems hold -/
theorem exBuild_ok : exGTech.Ok ∧ ∀ o ∈ exBObjs, o.Ok exGTech := by
  refine ⟨⟨by simp [StrictInc, exGTech], by decide, ?_⟩, ?_⟩
  · intro l tp h
    simp only [exGTech] at h
    split at h
    · simp at h; subst h; decide
    · split at h
      · simp at h; subst h; decide
      · cases h
  · intro o h
    simp only [exBObjs, List.mem_cons, List.not_mem_nil, or_false] at h
    rcases h with rfl | rfl | rfl | rfl
    · exact ⟨by decide, Or.inr ⟨rfl, by decide⟩⟩
    · exact ⟨by decide, by decide, rfl⟩
    · exact ⟨by decide, Or.inl ⟨rfl, by decide⟩⟩
    · exact (by decide : (2 : Int) ∈ exGTech.layers)

/-- C85: its coordinates -/
example : exBGrid.xs = [-5, 0, 10, 15, 20, 23, 30, 40, 45] ∧ exBGrid.ys = [-5, 0, 10, 20, 26, 30, 40, 45] := by
  have h := build_fixed exGTech ⟨⟨0, 0⟩, ⟨40, 40⟩⟩ ⟨⟨-5, -5⟩, ⟨45, 45⟩⟩ exBObjs false true
  unfold exBGrid
  rw [h.1, h.2.1]
  decide

set_option maxRecDepth 100000 in
/-- C86, C87: the wire is a path; the off-track via has its edge, marked; the track outside the route box has none;
the edge across a track of layer 2 against the layer's direction exists and is marked -/
example : exBGrid.hasEdge ⟨2, 2, 0⟩ .E = true ∧ exBGrid.hasGridCost ⟨2, 2, 0⟩ .E = false ∧ exBGrid.hasEdge ⟨4, 2, 0⟩ .E = true ∧
    exBGrid.hasEdge ⟨5, 2, 0⟩ .U = true ∧ exBGrid.hasGridCost ⟨5, 2, 0⟩ .U = true ∧ exBGrid.hasEdge ⟨0, 2, 0⟩ .E = false ∧
    exBGrid.hasEdge ⟨2, 2, 0⟩ .N = true ∧ exBGrid.hasGridCost ⟨2, 2, 0⟩ .N = true := by decide +kernel

set_option maxRecDepth 100000 in
/-- C88–C90: the indices of the objects; the access point lies off the tracks of both layers -/
example : figMazeIdx exBGrid ⟨⟨-5, -5⟩, ⟨45, 45⟩⟩ (.wire 2 ⟨10, 10⟩ ⟨23, 10⟩) = some (⟨2, 2, 0⟩, ⟨5, 2, 0⟩) ∧
    figMazeIdx exBGrid ⟨⟨-5, -5⟩, ⟨45, 45⟩⟩ (.via 2 4 ⟨23, 10⟩) = some (⟨5, 2, 0⟩, ⟨5, 2, 1⟩) ∧
    apMazeIdx exGTech exBGrid 2 ⟨15, 26⟩ (true, true) = (some ⟨3, 4, 0⟩, (false, false)) := by decide +kernel

/-- the hypotheses of C89 are met by the wire on layer 2, the via and the access point -/
example := c89_horizontal_wire exGTech exBuild_ok.1 ⟨⟨0, 0⟩, ⟨40, 40⟩⟩ ⟨⟨-5, -5⟩, ⟨45, 45⟩⟩ exBObjs exBuild_ok.2 false true exBGrid rfl 2
  ⟨10, 10⟩ ⟨23, 10⟩ (by simp [exBObjs]) rfl (by decide) ⟨by decide, by decide⟩ (Or.inl ⟨rfl, rfl⟩)
  ⟨by decide, by decide, by decide, by decide⟩ ⟨by decide, by decide, by decide, by decide⟩ (fun h => absurd h (by decide))
example := c89_via exGTech exBuild_ok.1 ⟨⟨0, 0⟩, ⟨40, 40⟩⟩ ⟨⟨-5, -5⟩, ⟨45, 45⟩⟩ exBObjs exBuild_ok.2 false true exBGrid rfl 2 4 ⟨23, 10⟩
  (by simp [exBObjs]) (by decide) (by decide) ⟨rfl, rfl⟩
  ⟨⟨by decide, by decide, by decide, by decide⟩, ⟨by decide, by decide, by decide, by decide⟩, fun h => absurd h (by decide)⟩
example := c89_access_point exGTech exBuild_ok.1 ⟨⟨0, 0⟩, ⟨40, 40⟩⟩ ⟨⟨-5, -5⟩, ⟨45, 45⟩⟩ exBObjs exBuild_ok.2 false true exBGrid rfl 2 ⟨15, 26⟩
  (by simp [exBObjs]) (by decide) (by decide) (by decide) ⟨rfl, rfl⟩
  ⟨⟨by decide, by decide, by decide, by decide⟩, ⟨by decide, by decide, by decide, by decide⟩, fun h => absurd h (by decide)⟩ (true, true)

/-- C90 cannot be extended to layers restricted to their tracks: the same access point keeps both flags there -/
theorem c90_restricted_layers_not_seen :
    ∃ T : GTech, T.Ok ∧ (∀ o ∈ exBObjs, o.Ok T) ∧ ¬ T.TrackY ⟨⟨-5, -5⟩, ⟨45, 45⟩⟩ 2 26 ∧ ¬ T.TrackX ⟨⟨-5, -5⟩, ⟨45, 45⟩⟩ 4 15 ∧
      apMazeIdx T (buildGrid T ⟨⟨0, 0⟩, ⟨40, 40⟩⟩ ⟨⟨-5, -5⟩, ⟨45, 45⟩⟩ exBObjs false true) 2 ⟨15, 26⟩ (true, true) =
        (some ⟨3, 4, 0⟩, (true, true)) := by
  refine ⟨{ exGTech with onGrid := fun _ => true }, ⟨exBuild_ok.1.inc, exBuild_ok.1.low, exBuild_ok.1.gap⟩, ?_, ?_, ?_, by decide +kernel⟩
  · intro o h
    have := exBuild_ok.2 o h
    cases o <;> exact this
  · rintro ⟨_, p, hp, _, ht⟩
    have : p = ⟨0, 5, 10⟩ := by simpa [exGTech] using hp
    subst this
    obtain ⟨i, hi⟩ := ht
    simp only at hi
    omega
  · rintro ⟨_, p, hp, _, ht⟩
    have : p = ⟨0, 5, 10⟩ := by simpa [exGTech] using hp
    subst this
    obtain ⟨i, hi⟩ := ht
    simp only at hi
    omega

/-- C89 needs layers in different directions: a via between two horizontal layers has no edge in the grid -/
theorem c89_same_direction_no_edge :
    ∃ (T : GTech) (o : BObj), T.Ok ∧ o.Ok T ∧ o = .via 2 4 ⟨10, 10⟩ ∧ (∀ l, T.onGrid l = false) ∧
      ∀ n, (buildGrid T ⟨⟨0, 0⟩, ⟨40, 40⟩⟩ ⟨⟨-5, -5⟩, ⟨45, 45⟩⟩ [o] false true).At n ⟨10, 10⟩ 2 →
        (buildGrid T ⟨⟨0, 0⟩, ⟨40, 40⟩⟩ ⟨⟨-5, -5⟩, ⟨45, 45⟩⟩ [o] false true).hasEdge n .U = false := by
  refine ⟨{ exGTech with hor := fun _ => true, pats := fun l => if l = 2 then [(false, ⟨0, 5, 10⟩)] else [] }, .via 2 4 ⟨10, 10⟩,
    ?_, ⟨by decide, by decide, rfl⟩, rfl, fun _ => rfl, ?_⟩
  · refine ⟨exBuild_ok.1.inc, exBuild_ok.1.low, ?_⟩
    intro l tp h
    simp only at h
    split at h
    · simp at h; subst h; decide
    · cases h
  · intro n hn
    rw [← Bool.not_eq_true]
    intro h
    rw [c86_up _ ?_ _ _ _ ?_ _ _ _ rfl n _ _ hn] at h
    · obtain ⟨_, h | h⟩ := h
      · rcases h.2.2 with h | h
        · obtain ⟨_, p, hp, _⟩ := h
          simp at hp
        · obtain ⟨_, o, ho, hl⟩ := h
          simp at ho
          subst ho
          rcases hl.2 with h | h
          · exact absurd h.2 (by simp)
          · exact absurd h.2 (by simp)
      · exact absurd h.1 (by simp)
    · refine ⟨exBuild_ok.1.inc, exBuild_ok.1.low, ?_⟩
      intro l tp h
      simp only at h
      split at h
      · simp at h; subst h; decide
      · cases h
    · intro o ho
      simp at ho
      subst ho
      exact ⟨by decide, by decide, rfl⟩

end TR
