import Verif.Cost.History
import Verif.Maze.EdgeProps
import Verif.Geom.Lemmas
/-! C79: edges blocked around shapes. -/
namespace TR

/-- the node lies on that layer and in the box -/
def NodeIn (g : Grid) (box : Box) (z : Int) (m : MIdx) : Prop := m.z = z ∧ ∃ p, g.point m = some p ∧ box.Has p

def blockKey (n : MIdx) (d : Dir) : Option (MIdx × Attr) := byAxis .blockE .blockN .blockU (edgeHome n d)

theorem isBlocked_key (g : Grid) (n : MIdx) (d : Dir) : g.isBlocked n d =
    match blockKey n d with
    | none => false
    | some (h, a) => g.isValid h && g.attr h a != 0 := by
  have gb : ∀ (m : MIdx) (p : Nat), p < 64 → getBit (g.bits (g.idx m)) p = (getBits (g.bits (g.idx m)) p 1 != 0) :=
    fun m p hp => getBit_eq _ p hp
  cases d
  · simp only [Grid.isBlocked, blockKey, edgeHome, byAxis]; split <;> rfl
  all_goals
    simp only [Grid.isBlocked, correct, blockKey, edgeHome, byAxis, attr_eq, Attr.field]
    refine (ite_false_eq_and _ _).trans ?_
    rw [gb _ _ (by omega)]

theorem blockKey_edge (n m : MIdx) (d e : Dir) : blockKey m e = blockKey n d ↔ edgeKey m e = edgeKey n d := by
  rcases n with ⟨a, b, c⟩; rcases m with ⟨a', b', c'⟩
  cases d <;> cases e <;> simp [blockKey, edgeKey, edgeHome, byAxis]

/-- call that blocks or unblocks an edge -/
def blockOp (set : Bool) (x : MIdx × Dir) : GOp := if set then .setBlocked x.1 x.2 else .resetBlocked x.1 x.2

theorem blockOp_step (g : Grid) (set : Bool) (n : MIdx) (d : Dir) :
    g.step (blockOp set (n, d)) = g ∧ (∀ k a, blockKey n d = some (k, a) → g.isValid k = false) ∨
      ∃ k a, blockKey n d = some (k, a) ∧ g.isValid k = true ∧ g.step (blockOp set (n, d)) = g.put k a (if set then 1 else 0) := by
  have S1 : ∀ (m : MIdx) (a : Attr) (p : Nat), p < 64 → a.field = (p, 1) → g.upd (g.idx m) (setBit · p) = g.put m a 1 := by
    intro m a p hp ha
    apply upd_congr
    rw [ha]; exact setBit_eq _ p hp
  have S0 : ∀ (m : MIdx) (a : Attr) (p : Nat), p < 64 → a.field = (p, 1) → g.upd (g.idx m) (resetBit · p) = g.put m a 0 := by
    intro m a p hp ha
    apply upd_congr
    rw [ha]; exact resetBit_eq _ p hp
  unfold blockOp
  by_cases h3 : g.isValid (correct n d).1 = true
  · cases set
    · simp only [Bool.false_eq_true, if_false, Grid.step, Grid.resetBlocked, h3, if_true]
      cases d <;> simp only [correct] at h3 ⊢
      · left; exact ⟨trivial, fun k a e => by cases e⟩
      all_goals right
      · exact ⟨_, .blockU, rfl, h3, S0 _ _ 5 (by omega) rfl⟩
      · exact ⟨_, .blockN, rfl, h3, S0 _ _ 4 (by omega) rfl⟩
      · exact ⟨_, .blockE, rfl, h3, S0 _ _ 3 (by omega) rfl⟩
      · exact ⟨_, .blockE, rfl, h3, S0 _ _ 3 (by omega) rfl⟩
      · exact ⟨_, .blockN, rfl, h3, S0 _ _ 4 (by omega) rfl⟩
      · exact ⟨_, .blockU, rfl, h3, S0 _ _ 5 (by omega) rfl⟩
    · simp only [if_true, Grid.step, Grid.setBlocked, h3]
      cases d <;> simp only [correct] at h3 ⊢
      · left; exact ⟨trivial, fun k a e => by cases e⟩
      all_goals right
      · exact ⟨_, .blockU, rfl, h3, S1 _ _ 5 (by omega) rfl⟩
      · exact ⟨_, .blockN, rfl, h3, S1 _ _ 4 (by omega) rfl⟩
      · exact ⟨_, .blockE, rfl, h3, S1 _ _ 3 (by omega) rfl⟩
      · exact ⟨_, .blockE, rfl, h3, S1 _ _ 3 (by omega) rfl⟩
      · exact ⟨_, .blockN, rfl, h3, S1 _ _ 4 (by omega) rfl⟩
      · exact ⟨_, .blockU, rfl, h3, S1 _ _ 5 (by omega) rfl⟩
  · left
    have h3' : g.isValid (correct n d).1 = false := by simpa using h3
    refine ⟨?_, ?_⟩
    · cases set
      · simp only [Bool.false_eq_true, if_false, Grid.step, Grid.resetBlocked, h3']
      · simp only [Bool.false_eq_true, if_true, if_false, Grid.step, Grid.setBlocked, h3']
    · intro k a e
      cases d <;> simp only [blockKey, edgeHome, byAxis, correct, Option.some.injEq, Prod.mk.injEq, reduceCtorEq] at e h3'
      all_goals (rw [← e.1]; exact h3')

theorem blockOp_blocked (g : Grid) (set : Bool) (n : MIdx) (d : Dir) (hd : d ≠ .UNKNOWN) (m : MIdx) (e : Dir) (hm : g.On m) (hme : g.On (m.nbr e)) :
    (g.step (blockOp set (n, d))).isBlocked m e = if SameEdge n d m e then set else g.isBlocked m e := by
  rw [isBlocked_key, isBlocked_key]
  by_cases hs : SameEdge n d m e
  · rw [if_pos hs]
    have hk := (blockKey_edge n m d e).2 ((sameEdge_key n d m e hd).1 hs)
    have hvalid : ∀ k a, blockKey m e = some (k, a) → g.isValid k = true := by
      intro k a hka
      rw [← on_iff]
      rcases m with ⟨x, y, z⟩
      cases e <;> simp only [blockKey, edgeHome, byAxis, Option.some.injEq, Prod.mk.injEq, reduceCtorEq] at hka
      all_goals (rw [← hka.1]; simp only [MIdx.nbr, Dir.delta, Grid.On] at *; omega)
    rcases blockOp_step g set n d with ⟨_, h2⟩ | ⟨k, a, h1, h2, h3⟩
    · obtain ⟨h, a, hha⟩ := edgeKey_some n d hd
      have : ∃ k a, blockKey n d = some (k, a) := by cases d <;> simp_all [blockKey, edgeHome, byAxis]
      obtain ⟨k, a, hka⟩ := this
      have := h2 k a hka
      rw [hvalid k a (hk.trans hka)] at this
      cases this
    · rw [h3, hk, h1]
      have ha : a.field.2 = 1 := by
        cases d <;> simp [blockKey, edgeHome, byAxis] at h1 hd <;> obtain ⟨_, rfl⟩ := h1 <;> rfl
      simp only [put_isValid, h2, put_attr g k k a a _ h2 h2, ha, and_self, if_true, Bool.true_and]
      cases set <;> rfl
  · rw [if_neg hs]
    rcases blockOp_step g set n d with ⟨h1, _⟩ | ⟨k, a, h1, h2, h3⟩
    · rw [h1]
    · rw [h3]
      have hne : blockKey m e ≠ some (k, a) := fun h => hs ((sameEdge_key n d m e hd).2 ((blockKey_edge n m d e).1 (h.trans h1.symm)))
      cases hke : blockKey m e with
      | none => rfl
      | some q =>
        obtain ⟨k', a'⟩ := q
        simp only [put_isValid]
        by_cases hv' : g.isValid k' = true
        · rw [put_attr g k k' a a' _ h2 hv']
          have : ¬ (k' = k ∧ a' = a) := by rintro ⟨rfl, rfl⟩; exact hne hke
          simp [this]
        · simp [hv']

theorem blockOp_legal (g : Grid) (set : Bool) (x : MIdx × Dir) : (blockOp set x).Legal g := by
  left; unfold blockOp; cases set <;> rfl

theorem blockOps_blocked (set : Bool) (xs : List (MIdx × Dir)) : ∀ (g : Grid), (∀ x ∈ xs, x.2 ≠ .UNKNOWN) → ∀ (m : MIdx) (e : Dir), g.On m → g.On (m.nbr e) →
    (g.run (xs.map (blockOp set))).isBlocked m e = if xs.any (fun x => decide (SameEdge x.1 x.2 m e)) then set else g.isBlocked m e := by
  induction xs with
  | nil => intro g _ m e _ _; simp [Grid.run]
  | cons x xs ih =>
    intro g hx m e hm hme
    have hsg := sameGrid_step g _ (blockOp_legal g set x)
    have h1 : g.run ((x :: xs).map (blockOp set)) = (g.step (blockOp set x)).run (xs.map (blockOp set)) := by simp [Grid.run]
    rw [h1, ih _ (fun y hy => hx y (by simp [hy])) m e ((sameGrid_on hsg _).2 hm) ((sameGrid_on hsg _).2 hme),
      blockOp_blocked g set x.1 x.2 (hx x (by simp)) m e hm hme, List.any_cons]
    by_cases hs : SameEdge x.1 x.2 m e
    · simp [hs]
    · rw [if_neg hs, decide_eq_false hs, Bool.false_or]

theorem point_node {g : Grid} {m : MIdx} (hm : g.On m) {p : Point} : g.point m = some p ↔ NodeAt g m.x.toNat m.y.toNat p := by
  unfold Grid.point NodeAt
  constructor
  · intro h
    split at h
    · rename_i a b h1 h2; cases h; exact ⟨h1, h2⟩
    · cases h
  · rintro ⟨h1, h2⟩; rw [h1, h2]

/-- the nodes of the window are those in the box -/
theorem mem_nodesIn_iff (g : Grid) (hs : g.Sorted) (box : Box) (z : Int) (hz : 0 ≤ z) (hz' : z < g.zs.length) (m : MIdx) :
    (∃ n ∈ nodesIn g box, m = ⟨n.i, n.j, z⟩) ↔ g.On m ∧ NodeIn g box z m := by
  constructor
  · rintro ⟨n, hn, rfl⟩
    obtain ⟨i, j, h1, h2, h3⟩ := mem_nodesIn g hs box hn
    have hon := on_node h3 hz hz'
    rw [h1, h2]
    refine ⟨hon, rfl, n.p, (point_node hon).2 (by simpa using h3), ?_⟩
    unfold nodesIn at hn
    simp only [List.mem_flatMap, List.mem_map, mem_rangeIncl] at hn
    obtain ⟨i', hi, j', hj, e⟩ := hn
    have hi' : n.i = i' := by rw [← e]
    have hj' : n.j = j' := by rw [← e]
    have hb := c13_index_box g hs box i j n.p.x n.p.y h3.1 h3.2
    have hx := hb.1.1 (by omega)
    have hy := hb.2.1 (by omega)
    exact ⟨hx.1, hx.2, hy.1, hy.2⟩
  · rintro ⟨hon, hzz, p, hp, hhas⟩
    have hn := (point_node hon).1 hp
    have hb := c13_index_box g hs box m.x.toNat m.y.toNat p.x p.y hn.1 hn.2
    have hx := hb.1.2 ⟨hhas.1, hhas.2.1⟩
    have hy := hb.2.2 ⟨hhas.2.2.1, hhas.2.2.2⟩
    unfold Grid.On at hon
    refine ⟨⟨m.x, m.y, ⟨g.xs.getD m.x.toNat 0, g.ys.getD m.y.toNat 0⟩⟩, ?_, ?_⟩
    · unfold nodesIn
      simp only [List.mem_flatMap, List.mem_map, mem_rangeIncl]
      exact ⟨m.x, by omega, m.y, by omega, rfl⟩
    · rcases m with ⟨x, y, z'⟩; simp only at hzz; rw [hzz]

theorem blocked_general (g : Grid) (hs : g.Sorted) (box : Box) (z : Int) (hz : 0 ≤ z) (hz' : z < g.zs.length) (set : Bool) (ds : List Dir)
    (hds : ∀ d ∈ ds, d ≠ .UNKNOWN ∧ d.opp ∈ ds) (m : MIdx) (e : Dir) (hm : g.On m) (hme : g.On (m.nbr e)) :
    ∀ g', g' = g.run ((nodesIn g box).flatMap fun n => ds.map fun d => if set then GOp.setBlocked ⟨n.i, n.j, z⟩ d else GOp.resetBlocked ⟨n.i, n.j, z⟩ d) →
    (e ∈ ds ∧ (NodeIn g box z m ∨ NodeIn g box z (m.nbr e)) → g'.isBlocked m e = set) ∧
    (¬ (e ∈ ds ∧ (NodeIn g box z m ∨ NodeIn g box z (m.nbr e))) → g'.isBlocked m e = g.isBlocked m e) := by
  intro g' hgg
  have hops : ((nodesIn g box).flatMap fun n => ds.map fun d => if set then GOp.setBlocked ⟨n.i, n.j, z⟩ d else GOp.resetBlocked ⟨n.i, n.j, z⟩ d) =
      ((nodesIn g box).flatMap fun n => ds.map fun d => ((⟨n.i, n.j, z⟩ : MIdx), d)).map (blockOp set) := by
    rw [List.map_flatMap]
    congr 1
    funext n
    rw [List.map_map]
    rfl
  have hg' : g'.isBlocked m e = if ((nodesIn g box).flatMap fun n => ds.map fun d => ((⟨n.i, n.j, z⟩ : MIdx), d)).any
      (fun x => decide (SameEdge x.1 x.2 m e)) = true then set else g.isBlocked m e := by
    have hun : ∀ x ∈ (nodesIn g box).flatMap fun n => ds.map fun d => ((⟨n.i, n.j, z⟩ : MIdx), d), x.2 ≠ .UNKNOWN := by
      intro x hx
      rw [List.mem_flatMap] at hx
      obtain ⟨c, hc, hx⟩ := hx
      rw [List.mem_map] at hx
      obtain ⟨d', hd', rfl⟩ := hx
      exact (hds d' hd').1
    have hrun := blockOps_blocked set _ g hun m e hm hme
    rw [← hops, ← hgg] at hrun
    exact hrun
  rw [hg']
  · have hany : ((nodesIn g box).flatMap fun n => ds.map fun d => ((⟨n.i, n.j, z⟩ : MIdx), d)).any (fun x => decide (SameEdge x.1 x.2 m e)) = true ↔
        e ∈ ds ∧ (NodeIn g box z m ∨ NodeIn g box z (m.nbr e)) := by
      rw [List.any_eq_true]
      constructor
      · rintro ⟨⟨n, d⟩, hx, hse⟩
        rw [List.mem_flatMap] at hx
        obtain ⟨c, hc, hx⟩ := hx
        rw [List.mem_map] at hx
        obtain ⟨d', hd', e'⟩ := hx
        simp only [Prod.mk.injEq] at e'
        obtain ⟨e1, rfl⟩ := e'
        rw [decide_eq_true_iff] at hse
        have hin := (mem_nodesIn_iff g hs box z hz hz' n).1 ⟨c, hc, e1.symm⟩
        rcases hse with ⟨h1, h2⟩ | ⟨h1, h2⟩
        · simp only at h1 h2
          rw [h1, h2]
          exact ⟨hd', Or.inl hin.2⟩
        · simp only at h1 h2
          refine ⟨by rw [h2]; exact (hds d' hd').2, Or.inr ?_⟩
          have : m.nbr e = n := by
            rw [h1, h2]
            rcases n with ⟨x, y, zz⟩
            cases d' <;> simp [MIdx.nbr, Dir.delta, Dir.opp] <;> omega
          rw [this]; exact hin.2
      · rintro ⟨he, h | h⟩
        · obtain ⟨c, hc, e1⟩ := (mem_nodesIn_iff g hs box z hz hz' m).2 ⟨hm, h⟩
          refine ⟨(m, e), ?_, decide_eq_true (Or.inl ⟨rfl, rfl⟩)⟩
          rw [List.mem_flatMap]
          exact ⟨c, hc, List.mem_map.2 ⟨e, he, by rw [← e1]⟩⟩
        · obtain ⟨c, hc, e1⟩ := (mem_nodesIn_iff g hs box z hz hz' (m.nbr e)).2 ⟨hme, h⟩
          refine ⟨(m.nbr e, e.opp), ?_, decide_eq_true (Or.inr ⟨?_, ?_⟩)⟩
          · rw [List.mem_flatMap]
            exact ⟨c, hc, List.mem_map.2 ⟨e.opp, (hds e he).2, by rw [← e1]⟩⟩
          · rcases m with ⟨x, y, zz⟩
            have := (hds e he).1
            cases e <;> simp [MIdx.nbr, Dir.delta, Dir.opp] <;> omega
          · cases e <;> rfl
    refine ⟨?_, ?_⟩
    · intro h; rw [if_pos (hany.2 h)]
    · intro h; rw [if_neg (fun hh => h (hany.1 hh))]

/-- C79: blocking a box on a layer blocks exactly the edges of that layer with an end in the box and leaves all other edges as they are -/
theorem c79_block_planar (g : Grid) (hs : g.Sorted) (box : Box) (z : Int) (hz : 0 ≤ z) (hz' : z < g.zs.length) (m : MIdx) (e : Dir)
    (hm : g.On m) (hme : g.On (m.nbr e)) :
    (modBlockedPlanar box z true g).isBlocked m e = true ↔
      g.isBlocked m e = true ∨ (e ∈ [Dir.E, .N, .W, .S] ∧ (NodeIn g box z m ∨ NodeIn g box z (m.nbr e))) := by
  classical
  have h := blocked_general g hs box z hz hz' true [Dir.E, .N, .W, .S] (by decide) m e hm hme _ rfl
  unfold modBlockedPlanar
  by_cases hc : e ∈ [Dir.E, .N, .W, .S] ∧ (NodeIn g box z m ∨ NodeIn g box z (m.nbr e))
  · rw [show _ = _ from h.1 hc]; exact ⟨fun _ => Or.inr hc, fun _ => rfl⟩
  · rw [show _ = _ from h.2 hc]; exact ⟨Or.inl, fun hh => hh.elim id (fun x => absurd x hc)⟩

/-- C79: … and blocking it for vias blocks exactly the vias up from and down to the nodes in the box -/
theorem c79_block_via (g : Grid) (hs : g.Sorted) (box : Box) (z : Int) (hz : 0 ≤ z) (hz' : z < g.zs.length) (m : MIdx) (e : Dir)
    (hm : g.On m) (hme : g.On (m.nbr e)) :
    (modBlockedVia box z true g).isBlocked m e = true ↔
      g.isBlocked m e = true ∨ (e ∈ [Dir.U, .D] ∧ (NodeIn g box z m ∨ NodeIn g box z (m.nbr e))) := by
  classical
  have h := blocked_general g hs box z hz hz' true [Dir.U, .D] (by decide) m e hm hme _ rfl
  unfold modBlockedVia
  by_cases hc : e ∈ [Dir.U, .D] ∧ (NodeIn g box z m ∨ NodeIn g box z (m.nbr e))
  · rw [show _ = _ from h.1 hc]; exact ⟨fun _ => Or.inr hc, fun _ => rfl⟩
  · rw [show _ = _ from h.2 hc]; exact ⟨Or.inl, fun hh => hh.elim id (fun x => absurd x hc)⟩

/-- C79: unblocking is by box too: it frees every edge with an end in the box, also those another shape had blocked -/
theorem c79_unblock (g : Grid) (hs : g.Sorted) (box : Box) (z : Int) (hz : 0 ≤ z) (hz' : z < g.zs.length) (m : MIdx) (e : Dir)
    (hm : g.On m) (hme : g.On (m.nbr e)) :
    ((modBlockedPlanar box z false g).isBlocked m e = true ↔
      g.isBlocked m e = true ∧ ¬ (e ∈ [Dir.E, .N, .W, .S] ∧ (NodeIn g box z m ∨ NodeIn g box z (m.nbr e)))) ∧
    ((modBlockedVia box z false g).isBlocked m e = true ↔
      g.isBlocked m e = true ∧ ¬ (e ∈ [Dir.U, .D] ∧ (NodeIn g box z m ∨ NodeIn g box z (m.nbr e)))) := by
  classical
  have h1 := blocked_general g hs box z hz hz' false [Dir.E, .N, .W, .S] (by decide) m e hm hme _ rfl
  have h2 := blocked_general g hs box z hz hz' false [Dir.U, .D] (by decide) m e hm hme _ rfl
  unfold modBlockedPlanar modBlockedVia
  refine ⟨?_, ?_⟩
  · by_cases hc : e ∈ [Dir.E, .N, .W, .S] ∧ (NodeIn g box z m ∨ NodeIn g box z (m.nbr e))
    · rw [show _ = _ from h1.1 hc]; exact ⟨(by simp), fun hh => absurd hc hh.2⟩
    · rw [show _ = _ from h1.2 hc]; exact ⟨fun h => ⟨h, hc⟩, fun h => h.1⟩
  · by_cases hc : e ∈ [Dir.U, .D] ∧ (NodeIn g box z m ∨ NodeIn g box z (m.nbr e))
    · rw [show _ = _ from h2.1 hc]; exact ⟨(by simp), fun hh => absurd hc hh.2⟩
    · rw [show _ = _ from h2.2 hc]; exact ⟨fun h => ⟨h, hc⟩, fun h => h.1⟩

/-- the square cut of a layer of that width, placed at `p` -/
def cutSq (w : Int) (p : Point) : Box := ⟨⟨p.x - w / 2, p.y - w / 2⟩, ⟨p.x + w / 2, p.y + w / 2⟩⟩

/-- C79: near a power or ground via that already breaks an ADJACENTCUTS rule with another power or ground cut, every node where a cut would come
closer than that rule allows has its via edge blocked; and nothing else changes. -/
theorem c79_adjacent_cuts (rules : List CutSpRule) (w : Int) (hw : 0 ≤ w) (cut viaBox : Box) (hc : cut.Proper) (hin : cut.Inside viaBox)
    (pgCuts : List Box) (hpg : ∀ b ∈ pgCuts, b.Proper) (z : Int) (g : Grid) (hs : g.Sorted) (hz : 0 ≤ z) (hz' : z < g.zs.length)
    (hrule : ∀ r ∈ rules, 0 ≤ r.spacing ∧ (r.adj.isSome = true → r.spacing ≤ r.within)) :
    (∀ r ∈ rules, r.adj.isSome = true → ∀ b ∈ pgCuts, b ≠ cut → CutNear r.c2c cut b r.spacing →
      ∀ (i j : Nat) (p : Point), NodeAt g i j p → z + 1 < g.zs.length → CutNear r.c2c cut (cutSq w p) r.spacing →
        (adjCutBlock rules w cut viaBox pgCuts z g).isBlocked ⟨i, j, z⟩ .U = true) ∧
    (∀ m e, g.On m → g.On (m.nbr e) → g.isBlocked m e = true → (adjCutBlock rules w cut viaBox pgCuts z g).isBlocked m e = true) ∧
    (∀ m e, g.On m → g.On (m.nbr e) → (e ≠ .U ∧ e ≠ .D) ∨ (e = .U ∧ m.z ≠ z) →
      (adjCutBlock rules w cut viaBox pgCuts z g).isBlocked m e = g.isBlocked m e) ∧
    ((∀ r ∈ rules, r.adj.isSome = true → ∀ b ∈ pgCuts, b ≠ cut → ¬ CutNear r.c2c cut b r.spacing) →
      adjCutBlock rules w cut viaBox pgCuts z g = g) := by
  have hops : (rules.flatMap fun r => if r.adj.isSome && adjFixedViol r cut viaBox pgCuts then
      (nodesIn g (adjBlockBox r w cut)).map fun n => GOp.setBlocked ⟨n.i, n.j, z⟩ .U else []) =
      (rules.flatMap fun r => if r.adj.isSome && adjFixedViol r cut viaBox pgCuts then
        (nodesIn g (adjBlockBox r w cut)).map fun n => ((⟨n.i, n.j, z⟩ : MIdx), Dir.U) else []).map (blockOp true) := by
    rw [List.map_flatMap]
    congr 1
    funext r
    split
    · rw [List.map_map]; rfl
    · rfl
  have hU : ∀ x ∈ (rules.flatMap fun r => if r.adj.isSome && adjFixedViol r cut viaBox pgCuts then
        (nodesIn g (adjBlockBox r w cut)).map fun n => ((⟨n.i, n.j, z⟩ : MIdx), Dir.U) else []), x.1.z = z ∧ x.2 = .U := by
    intro x hx
    rw [List.mem_flatMap] at hx
    obtain ⟨r, _, hx⟩ := hx
    split at hx
    · rw [List.mem_map] at hx
      obtain ⟨n, _, rfl⟩ := hx
      exact ⟨rfl, rfl⟩
    · cases hx
  have hrun : ∀ m e, g.On m → g.On (m.nbr e) → (adjCutBlock rules w cut viaBox pgCuts z g).isBlocked m e =
      if (rules.flatMap fun r => if r.adj.isSome && adjFixedViol r cut viaBox pgCuts then
        (nodesIn g (adjBlockBox r w cut)).map fun n => ((⟨n.i, n.j, z⟩ : MIdx), Dir.U) else []).any (fun x => decide (SameEdge x.1 x.2 m e)) = true
      then true else g.isBlocked m e := by
    intro m e hm hme
    unfold adjCutBlock
    rw [hops]
    exact blockOps_blocked true _ g (fun x hx => by rw [(hU x hx).2]; decide) m e hm hme
  have hviol : ∀ r ∈ rules, r.adj.isSome = true → (adjFixedViol r cut viaBox pgCuts = true ↔
      ∃ b ∈ pgCuts, b ≠ cut ∧ CutNear r.c2c cut b r.spacing) := by
    intro r hr ha
    unfold adjFixedViol
    simp only [List.any_eq_true, Bool.and_eq_true, decide_eq_true_iff]
    constructor
    · rintro ⟨b, hb, ⟨_, hne⟩, hlt⟩
      exact ⟨b, hb, hne, (cutRuleDist2_near r hc (hpg b hb) _).1 hlt⟩
    · rintro ⟨b, hb, hne, hn⟩
      refine ⟨b, hb, ⟨?_, hne⟩, (cutRuleDist2_near r hc (hpg b hb) _).2 hn⟩
      have hg := cutNear_gaps hc (hpg b hb) (hrule r hr).1 hn
      have hsw := (hrule r hr).2 ha
      unfold Box.Inside at hin
      have hbp := hpg b hb
      unfold Box.Proper at hbp hc
      rw [Box.overlaps_true]
      simp only [Box.left, Box.right, Box.bottom, Box.top] at *
      omega
  refine ⟨?_, ?_, ?_, ?_⟩
  · intro r hr ha b hb hne hn i j p hp hz1 hcn
    have hon := on_node hp hz hz'
    have hon2 : g.On ((⟨i, j, z⟩ : MIdx).nbr .U) := by
      have := on_node hp (show 0 ≤ z + 1 by omega) hz1
      simpa [MIdx.nbr, Dir.delta] using this
    rw [hrun _ _ hon hon2, if_pos]
    rw [List.any_eq_true]
    refine ⟨((⟨i, j, z⟩ : MIdx), .U), ?_, decide_eq_true (Or.inl ⟨rfl, rfl⟩)⟩
    rw [List.mem_flatMap]
    refine ⟨r, hr, ?_⟩
    rw [if_pos (by rw [ha, (hviol r hr ha).2 ⟨b, hb, hne, hn⟩]; rfl), List.mem_map]
    have hbox : (adjBlockBox r w cut).Has p := by
      have hsp := (hrule r hr).1
      have hcs : (cutSq w p).Proper := by unfold cutSq Box.Proper; simp only [Box.left, Box.right, Box.bottom, Box.top]; omega
      unfold adjBlockBox
      cases hc2 : r.c2c
      · simp only [Bool.false_eq_true, if_false]
        rw [hc2] at hcn
        have := cutNear_gaps hc hcs hsp hcn
        have e2 := tdiv2 hw
        unfold Box.Has
        unfold cutSq at this
        simp only [Box.left, Box.right, Box.bottom, Box.top] at *
        omega
      · simp only [if_true]
        rw [hc2] at hcn
        rcases hcn with ⟨_, u, v, hu, hv, hlt⟩ | ⟨h, _⟩
        · have := abs_lt_of_sq hsp hlt
          have e1 : u = boxCentre cut := by
            rcases u with ⟨a, b⟩; unfold boxCentre; rw [← hu.1, ← hu.2]
          have e2 : v = p := by
            have h1 : (p.x - w / 2 + (p.x + w / 2)).tdiv 2 = p.x := by
              rw [show p.x - w / 2 + (p.x + w / 2) = p.x * 2 by omega]; exact Int.mul_tdiv_cancel _ (by decide)
            have h2 : (p.y - w / 2 + (p.y + w / 2)).tdiv 2 = p.y := by
              rw [show p.y - w / 2 + (p.y + w / 2) = p.y * 2 by omega]; exact Int.mul_tdiv_cancel _ (by decide)
            have := hv.1
            have := hv.2
            unfold cutSq at *
            simp only [Box.left, Box.right, Box.bottom, Box.top] at *
            rcases v with ⟨a, b⟩; rcases p with ⟨c, d⟩
            simp only at *
            simp only [Point.mk.injEq]
            omega
          rw [← e1, mk4_has (by omega) (by omega)]
          rw [e2] at this
          omega
        · cases h
    obtain ⟨c, hc1, e1⟩ := (mem_nodesIn_iff g hs (adjBlockBox r w cut) z hz hz' ⟨i, j, z⟩).2
      ⟨hon, rfl, p, (point_node hon).2 (by simpa using hp), hbox⟩
    exact ⟨c, hc1, by rw [e1]⟩
  · intro m e hm hme hb
    rw [hrun m e hm hme]
    split
    · rfl
    · exact hb
  · intro m e hm hme hne
    rw [hrun m e hm hme, if_neg]
    rw [List.any_eq_true]
    rintro ⟨x, hx, hse⟩
    rw [decide_eq_true_iff] at hse
    obtain ⟨h1, h2⟩ := hU x hx
    rw [h2] at hse
    rcases hse with ⟨h3, h4⟩ | ⟨h3, h4⟩
    · rcases hne with ⟨h5, _⟩ | ⟨_, h5⟩
      · exact h5 h4
      · rw [h3] at h5; exact h5 h1
    · rcases hne with ⟨_, h5⟩ | ⟨h5, _⟩
      · exact h5 h4
      · rw [h5] at h4; cases h4
  · intro hno
    have : (rules.flatMap fun r => if r.adj.isSome && adjFixedViol r cut viaBox pgCuts then
      (nodesIn g (adjBlockBox r w cut)).map fun n => GOp.setBlocked ⟨n.i, n.j, z⟩ .U else []) = [] := by
      rw [List.flatMap_eq_nil_iff]
      intro r hr
      rw [if_neg]
      intro h
      rw [Bool.and_eq_true] at h
      obtain ⟨b, hb, hne, hn⟩ := (hviol r hr h.1).1 h.2
      exact hno r hr h.1 b hb hne hn
    unfold adjCutBlock
    rw [this]
    rfl

/-! ### concrete cases -/

def exCostWire : CFig := .wire ⟨⟨-20, 80⟩, ⟨220, 120⟩⟩ ⟨0, 1, 0⟩ ⟨2, 1, 0⟩

theorem exViasFit : ViasFit exCTech exCGrid := by
  intro z h1 h2
  have : z = 0 ∨ z = 1 ∨ z = 2 := by
    have : z < 3 := h2
    omega
  rcases this with rfl | rfl | rfl
  · refine ⟨?_, ?_, ?_, ?_⟩
    · intro v h; exact nomatch h
    · intro v h; exact nomatch h
    · intro v h; decide
    · intro h; cases h <;> decide
  · refine ⟨?_, ?_, ?_, ?_⟩ <;> intros <;> first | decide | (rename_i h; exact nomatch h)
  · refine ⟨?_, ?_, ?_, ?_⟩ <;> intros <;> first | decide | (rename_i h; exact nomatch h)

example : exCostWire.OnGrid exCGrid ∧ RoutedFrom exCTech (fun _ => none) exCGrid (⟨1, 1, 0⟩, false) [exCostWire]
      (addPathCost exCTech (fun _ => none) exCostWire exCGrid) ∧
    chargeOf exCTech exCGrid (fun _ => none) (⟨1, 1, 0⟩, false) [exCostWire] = 1 ∧
    chargeOf exCTech exCGrid (fun _ => none) (⟨1, 1, 1⟩, false) [exCostWire] = 0 ∧ exCostWire.Metal ⟨⟨-20, 80⟩, ⟨220, 120⟩⟩ 0 := by
  have hon : exCostWire.OnGrid exCGrid := ⟨by decide, by decide, rfl⟩
  refine ⟨hon, RoutedFrom.add .start (c78_in_grid _ _ (by unfold Grid.Sorted StrictInc; decide) _ exViasFit _ hon) (by decide), by decide, by decide,
    .wire _ _ _⟩

example : (modBlockedPlanar ⟨⟨80, 80⟩, ⟨120, 120⟩⟩ 0 true exCGrid).isBlocked ⟨1, 1, 0⟩ .W = true ∧
    (modBlockedPlanar ⟨⟨80, 80⟩, ⟨120, 120⟩⟩ 0 true exCGrid).isBlocked ⟨2, 2, 0⟩ .W = false ∧
    (modBlockedPlanar ⟨⟨80, 80⟩, ⟨120, 120⟩⟩ 0 false (modBlockedPlanar ⟨⟨180, 80⟩, ⟨220, 120⟩⟩ 0 true exCGrid)).isBlocked ⟨1, 1, 0⟩ .E = false ∧
    (adjCutBlock [⟨0, 40, false, false, none, false, some 3, 60, false, false, -1⟩] 20 ⟨⟨90, 90⟩, ⟨110, 110⟩⟩ ⟨⟨90, 90⟩, ⟨110, 110⟩⟩
      [⟨⟨90, 90⟩, ⟨110, 110⟩⟩, ⟨⟨130, 90⟩, ⟨150, 110⟩⟩] 0 exCGrid).isBlocked ⟨1, 1, 0⟩ .U = true := by
  refine ⟨by decide, by decide, by decide, by decide⟩

end TR
