import Verif.Seek.Costs
/-! The cost fields of an entry against the walk it stands for. -/
namespace TR

def Walk.along (w : Walk) (g : Grid) (T : SeekTech) (axis : Dir → Bool) : Nat :=
  ((w.sinceVia.filter (fun s => axis s.2)).map (fun s => g.gap T s.1 (s.1.nbr s.2))).sum

/-- the cost fields `c` belong to the walk `w` -/
structure Matches (g : Grid) (T : SeekTech) (w : Walk) (c : SeekCost) : Prop where
  since : c.since = if w.via = none then none else some (w.along g T Dir.alongX, w.along g T Dir.alongY)
  viaUp : c.viaUp = !w.viaBelow
  path : c.path = Walk.cost g T w
  known : w ≠ [] → w.last ≠ .UNKNOWN

theorem Matches.vlen {g T w c} (h : Matches g T w c) :
    c.vlen = (w.travel g T Dir.alongX, w.travel g T Dir.alongY) := by
  unfold SeekCost.vlen Walk.travel
  rw [h.since]
  by_cases hv : w.via = none
  · simp [hv]
  · simp only [hv, if_false]; rfl

theorem travel_nonneg (w : Walk) (g T a) : 0 ≤ w.travel g T a := by
  unfold Walk.travel
  split
  · simp [frMax]
  · omega

theorem viaPair_iff {g T w c} (h : Matches g T w c) (n : MIdx) (d : Dir) (hd : d.vert = true) :
    T.viaPair c n.z d = true ↔ w.ForbiddenVia T g n d := by
  unfold SeekTech.viaPair Walk.ForbiddenVia
  rw [h.vlen, h.viaUp]
  have hx := travel_nonneg w g T Dir.alongX
  have hy := travel_nonneg w g T Dir.alongY
  have hdd : (!decide (d = Dir.U)) = decide (d = .D) := by cases d <;> simp [Dir.vert] at hd ⊢
  simp only [hdd, Bool.not_not]
  generalize w.travel g T Dir.alongX = x at *
  generalize w.travel g T Dir.alongY = y at *
  generalize T.v2vForbidden n.z w.viaBelow (decide (d = Dir.D)) = F
  by_cases h1 : x = 0 <;> by_cases h2 : y = 0
  · subst h1; subst h2; simp
  · subst h1
    have : y > 0 := by omega
    simp [h2, this]
  · subst h2
    have : x > 0 := by omega
    simp [h1, this]
  · have a : x > 0 := by omega
    have b : y > 0 := by omega
    simp only [h1, h2, a, b, decide_false, decide_true, Bool.false_and, Bool.and_false, Bool.true_and]
    cases F false y <;> cases F true x <;> simp [h1, h2]

theorem badTurn_planar {g T w c} (h : Matches g T w c) (n : MIdx) (d : Dir) (hd : d.vert = false) :
    T.badTurn c n.z w.last d = true ↔ w.ForbiddenTurn T g n := by
  unfold SeekTech.badTurn Walk.ForbiddenTurn
  rw [h.vlen, h.viaUp]
  simp only [hd, Bool.false_eq_true, if_false, Bool.not_not]
  cases hl : w.last <;> simp [Dir.alongX, Dir.alongY]

theorem badTurn_vert (T : SeekTech) (c : SeekCost) (z : Int) (last d : Dir) (hd : d.vert = true) :
    T.badTurn c z last d = false := by
  unfold SeekTech.badTurn
  simp [hd]

theorem last_unknown {g T w c} (h : Matches g T w c) : w.last ≠ .UNKNOWN ↔ w ≠ [] := by
  constructor
  · rintro h1 rfl; exact h1 rfl
  · exact h.known

theorem nextPathCost_eq {g T w c} (h : Matches g T w c) (hc : g.Coords T) (n : MIdx) (d : Dir) (h1 : g.On n)
    (h2 : g.On (n.nbr d)) :
    g.nextPathCost T c n w.last d = Walk.cost g T w + Walk.stepCost w g T n d := by
  unfold Grid.nextPathCost Walk.stepCost
  rw [h.path, edgeCost_weight hc n d h1 h2, edgeLen_gap hc n d h1 h2]
  have b1 : (if w.last ≠ d ∧ w.last ≠ .UNKNOWN then 1 else 0) = (if w ≠ [] ∧ w.last ≠ d then 1 else 0) := by
    have := last_unknown h
    by_cases hw : w ≠ []
    · have := this.2 hw
      simp [hw, this]
    · have h3 : ¬ w.last ≠ .UNKNOWN := fun hh => hw (this.1 hh)
      rw [if_neg (fun hh => h3 hh.2), if_neg (fun hh => hw hh.1)]
  have b2 : (if d.vert then
        if T.viaPair c n.z d then (if T.late then T.marker * g.gap T n (n.nbr d) else T.drc * g.gap T n (n.nbr d)) else 0
       else 0) =
      (if d.vert = true ∧ w.ForbiddenVia T g n d then (if T.late then T.marker else T.drc) * g.gap T n (n.nbr d) else 0) := by
    by_cases hv : d.vert = true
    · rw [if_pos hv]
      by_cases hf : w.ForbiddenVia T g n d
      · rw [if_pos ((viaPair_iff h n d hv).2 hf), if_pos (show d.vert = true ∧ w.ForbiddenVia T g n d from ⟨hv, hf⟩)]
        cases T.late <;> rfl
      · rw [if_neg (fun hh => hf ((viaPair_iff h n d hv).1 hh)), if_neg (show ¬ (d.vert = true ∧ w.ForbiddenVia T g n d) from fun hh => hf hh.2)]
    · rw [if_neg hv, if_neg (show ¬ (d.vert = true ∧ w.ForbiddenVia T g n d) from fun hh => hv hh.1)]
  have b3 : (if w.last ≠ .UNKNOWN ∧ w.last ≠ d then
        if T.badTurn c n.z w.last d then (if T.late then T.drc * g.gap T n (n.nbr d) else T.marker * g.gap T n (n.nbr d)) else 0
       else 0) =
      (if d.vert = false ∧ w ≠ [] ∧ w.last ≠ d ∧ w.ForbiddenTurn T g n then
        (if T.late then T.drc else T.marker) * g.gap T n (n.nbr d) else 0) := by
    by_cases hv : d.vert = true
    · rw [if_neg (show ¬ (d.vert = false ∧ _) by simp [hv])]
      rw [badTurn_vert T c n.z w.last d hv]
      simp
    · have hv' : d.vert = false := by simpa using hv
      by_cases hw : w ≠ []
      · by_cases hl : w.last ≠ d
        · rw [if_pos ⟨(last_unknown h).2 hw, hl⟩]
          by_cases hf : w.ForbiddenTurn T g n
          · rw [if_pos ((badTurn_planar h n d hv').2 hf), if_pos (show d.vert = false ∧ w ≠ [] ∧ w.last ≠ d ∧ w.ForbiddenTurn T g n from ⟨hv', hw, hl, hf⟩)]
            cases T.late <;> rfl
          · rw [if_neg (fun hh => hf ((badTurn_planar h n d hv').1 hh)), if_neg (show ¬ (d.vert = false ∧ w ≠ [] ∧ w.last ≠ d ∧ w.ForbiddenTurn T g n) from fun hh => hf hh.2.2.2)]
        · rw [if_neg (fun hh => hl hh.2), if_neg (show ¬ (d.vert = false ∧ w ≠ [] ∧ w.last ≠ d ∧ w.ForbiddenTurn T g n) from fun hh => hl hh.2.2.1)]
      · rw [if_neg (fun hh => hw ((last_unknown h).1 hh.1)), if_neg (show ¬ (d.vert = false ∧ w ≠ [] ∧ w.last ≠ d ∧ w.ForbiddenTurn T g n) from fun hh => hw hh.2.1)]
  dsimp only
  rw [b1, b2, b3]
  omega

theorem matches_start (g : Grid) (T : SeekTech) (d0 : Int) (c0 : Nat) :
    Matches g T [] ⟨none, true, none, d0, 0, c0⟩ :=
  ⟨rfl, rfl, rfl, fun h => absurd rfl h⟩

theorem matches_step {g T w c} (h : Matches g T w c) (hc : g.Coords T) (G : SeekGoal) (n : MIdx) (d : Dir)
    (hdU : d ≠ .UNKNOWN) (h1 : g.On n) (h2 : g.On (n.nbr d)) :
    Matches g T ((n, d) :: w) (g.nextSeek T G c n w.last d) := by
  constructor
  · simp only [Grid.nextSeek]
    by_cases hv : d.vert = true
    · have hvia : Walk.via ((n, d) :: w) = some d := by simp [Walk.via, List.find?, hv]
      have hs : Walk.sinceVia ((n, d) :: w) = [] := by simp [Walk.sinceVia, List.takeWhile, hv]
      rw [if_pos hv, hvia, if_neg (by simp)]
      simp [Walk.along, hs]
    · have hv' : d.vert = false := by simpa using hv
      have hvia : Walk.via ((n, d) :: w) = w.via := by simp [Walk.via, List.find?, hv']
      have hs : Walk.sinceVia ((n, d) :: w) = (n, d) :: w.sinceVia := by simp [Walk.sinceVia, List.takeWhile, hv']
      rw [if_neg hv, hvia, h.since]
      by_cases hn : w.via = none
      · simp [hn]
      · rw [if_neg hn, if_neg hn]
        simp only [edgeLen_gap hc n d h1 h2, Walk.along, hs]
        have : (d.alongX = true ∧ d.alongY = false) ∨ (d.alongX = false ∧ d.alongY = true) := by
          cases d <;> simp_all [Dir.alongX, Dir.alongY, Dir.vert]
        rcases this with ⟨a, b⟩ | ⟨a, b⟩ <;> simp [a, b, List.filter_cons] <;> omega
  · simp only [Grid.nextSeek]
    by_cases hv : d.vert = true
    · have hvia : Walk.via ((n, d) :: w) = some d := by simp [Walk.via, List.find?, hv]
      rw [if_pos hv]
      unfold Walk.viaBelow
      rw [hvia]
      cases d <;> simp [Dir.vert] at hv ⊢
    · have hv' : d.vert = false := by simpa using hv
      have hvia : Walk.via ((n, d) :: w) = w.via := by simp [Walk.via, List.find?, hv']
      rw [if_neg hv, h.viaUp]
      unfold Walk.viaBelow
      rw [hvia]
  · exact nextPathCost_eq h hc n d h1 h2
  · intro _; exact hdU

end TR
