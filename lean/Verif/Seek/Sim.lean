import Verif.Seek.Hist
/-! The costed search on the grid storage follows the costed abstract search. -/
namespace TR
open Abs (back nbr_back back_push View Ent St)
open AbsC (CE CSt Sys)

def eraseC (a : CE SeekCost) : SeekEnt := ⟨erase a.e, a.k⟩

def seekSys (g : Grid) (T : SeekTech) (G : SeekGoal) (κ : Nat) : Sys SeekCost where
  V := gview g
  nx := g.nextSeek T G
  pc := SeekCost.path
  fc := SeekCost.cost
  wt := g.edgeCost T
  est := g.estCost T G.lo G.hi
  kap := κ

/-- `g` is `g0` with other predecessor labels, and the labels and frontier agree with `s` -/
structure SimC (g0 g : Grid) (q : List SeekEnt) (s : CSt SeekCost) : Prop where
  same : g = { g0 with prevs := g.prevs }
  prev : ∀ n, g0.On n → g.getPrevDir n = s.prev n
  q : q = s.q.map eraseC

theorem SimC.sim {g0 g q s} (h : SimC g0 g q s) : Sim g0 g (s.st.q.map erase) s.st := ⟨h.same, h.prev, rfl⟩

theorem simC_expandDir {g0 g : Grid} {q s} (T : SeekTech) (G : SeekGoal) (κ : Nat) (hE : EdgesOn g0) (h : SimC g0 g q s)
    (a : CE SeekCost) (hw : g0.On (back a.e.n a.e.d1)) (d : Dir) :
    SimC g0 (Grid.seekTry T G (eraseC a) (g, q) d).1 (Grid.seekTry T G (eraseC a) (g, q) d).2
      (AbsC.expandDirC (seekSys g0 T G κ) a s d) := by
  have hcost : g.nextSeek T G a.k a.e.n a.e.d1 d = g0.nextSeek T G a.k a.e.n a.e.d1 d := by rw [h.same]; rfl
  simp only [Grid.seekTry, AbsC.expandDirC]
  by_cases hx : Abs.expandable (gview g0) s.prev a.e d
  · rw [if_pos (show g.isExpandable (eraseC a).e d = true from (sim_expandable hE h.sim a.e d).2 hx),
      if_pos (show Abs.expandable (seekSys g0 T G κ).V s.prev a.e d from hx)]
    simp only [Grid.seekExpand, eraseC, erase, enc_shift, enc_last, tailIdx_enc, nextGrid_eq, back_push]
    rw [h.prev _ hw]
    by_cases h2 : a.e.d2 ≠ .UNKNOWN
    · rw [if_pos h2, if_pos h2]
      by_cases h3 : s.prev (back a.e.n a.e.d1) = .UNKNOWN ∨ s.prev (back a.e.n a.e.d1) = a.e.d2
      · rw [if_pos h3, if_pos h3]
        refine ⟨?_, ?_, ?_⟩
        · have := h.same
          simp only [Grid.setPrevDir]
          rw [this]
        · intro n hn
          have hon := sim_on h.same
          show (g.setPrevDir _ _).getPrevDir n = _
          rw [getPrev_setPrev g _ n _ ((hon _).2 hw) ((hon _).2 hn), h.prev n hn]
          rfl
        · rw [h.q, hcost]; simp [AbsC.pushC, Abs.push, eraseC, erase, seekSys]
      · rw [if_neg h3, if_neg h3]; exact h
    · rw [if_neg h2, if_neg h2]
      refine ⟨h.same, h.prev, ?_⟩
      rw [h.q, hcost]; simp [AbsC.pushC, Abs.push, eraseC, erase, seekSys]
  · rw [if_neg (show ¬ g.isExpandable (eraseC a).e d = true from fun hh => hx ((sim_expandable hE h.sim a.e d).1 hh)),
      if_neg (show ¬ Abs.expandable (seekSys g0 T G κ).V s.prev a.e d from hx)]
    exact h

theorem simC_fold {g0 : Grid} (T : SeekTech) (G : SeekGoal) (κ : Nat) (hE : EdgesOn g0) (a : CE SeekCost)
    (hw : g0.On (back a.e.n a.e.d1)) (ds : List Dir) :
    ∀ (g : Grid) (q s), SimC g0 g q s →
    SimC g0 (ds.foldl (Grid.seekTry T G (eraseC a)) (g, q)).1 (ds.foldl (Grid.seekTry T G (eraseC a)) (g, q)).2
      (ds.foldl (AbsC.expandDirC (seekSys g0 T G κ) a) s) := by
  induction ds with
  | nil => intro g q s h; exact h
  | cons d ds ih =>
    intro g q s h
    have := simC_expandDir T G κ hE h a hw d
    exact ih _ _ _ this

theorem simC_loop {g0 : Grid} (T : SeekTech) (G : SeekGoal) (κ : Nat) (hE : EdgesOn g0) (top : List SeekEnt → Nat) (f : Nat) :
    ∀ (g : Grid) (q : List SeekEnt) (s : CSt SeekCost), SimC g0 g q s → Abs.Inv (gview g0) (gnodes g0) s.st →
      (AbsC.loopC (seekSys g0 T G κ) (fun q => top (q.map eraseC)) f s = none ∧ Grid.seekLoop T G top f g q = none) ∨
      ∃ s' r g' q', AbsC.loopC (seekSys g0 T G κ) (fun q => top (q.map eraseC)) f s = some (s', r) ∧
        Grid.seekLoop T G top f g q = some (g', r.map eraseC) ∧ SimC g0 g' q' s' := by
  induction f with
  | zero => intro g q s _ _; left; exact ⟨rfl, rfl⟩
  | succ f ih =>
    intro g q s h hi
    simp only [AbsC.loopC, Grid.seekLoop]
    have hget : q[top q]? = (s.q[top (s.q.map eraseC)]?).map eraseC := by
      rw [h.q, List.getElem?_map]
    have hq' : q.eraseIdx (top q) = (s.q.eraseIdx (top (s.q.map eraseC))).map eraseC := by
      rw [h.q, eraseIdx_map]
    rw [hget, hq']
    cases hcase : s.q[top (s.q.map eraseC)]? with
    | none =>
      right
      exact ⟨s, none, g, q, rfl, rfl, h⟩
    | some a =>
      have heok := hi a.e (AbsC.mem_st (List.mem_of_getElem? hcase))
      obtain ⟨hon, hw⟩ := entOK_on heok
      have hi' : Abs.Inv (gview g0) (gnodes g0) (CSt.st ⟨s.q.eraseIdx (top (s.q.map eraseC)), s.prev⟩) :=
        AbsC.inv_eraseC (S := seekSys g0 T G κ) hi
      have hs' : SimC g0 g ((s.q.eraseIdx (top (s.q.map eraseC))).map eraseC)
        ⟨s.q.eraseIdx (top (s.q.map eraseC)), s.prev⟩ := ⟨h.same, h.prev, rfl⟩
      simp only [Option.map_some]
      have hn : (eraseC a).e.n = a.e.n := rfl
      rw [hn, h.prev _ hon, sim_dst h.same]
      have hdst : (seekSys g0 T G κ).V.dst a.e.n = g0.isDst a.e.n := by simp [seekSys, gview, hon]
      by_cases hp : s.prev a.e.n ≠ .UNKNOWN
      · rw [if_pos hp, if_pos hp]
        exact ih _ _ _ hs' hi'
      · rw [if_neg hp, if_neg hp, hdst]
        by_cases hd : g0.isDst a.e.n = true
        · rw [if_pos hd, if_pos hd]
          right
          exact ⟨_, some a, g, _, rfl, rfl, hs'⟩
        · rw [if_neg hd, if_neg hd]
          refine ih _ _ _ (simC_fold T G κ hE a hw _ _ _ _ hs') ?_
          rw [AbsC.st_expandAllC]
          exact Abs.inv_expand (edgesIn_gview hE) hi' heok (by
            have : (gview g0).dst a.e.n = g0.isDst a.e.n := hdst
            rw [this]; simpa using hd)

theorem simC_init {g : Grid} {comps} (T : SeekTech) (G : SeekGoal) (h : g.Ready comps) :
    SimC g g (comps.map (g.seekStart T G)) (AbsC.initC comps (fun n => (g.seekStart T G n).c)) := by
  refine ⟨rfl, h.clear, ?_⟩
  simp only [AbsC.initC, List.map_map]
  apply List.map_congr_left
  intro n _
  simp [eraseC, erase, enc, Dir.code, Grid.seekStart]

theorem invC_init {g : Grid} {comps} (T : SeekTech) (G : SeekGoal) (h : g.Ready comps) :
    Abs.Inv (gview g) (gnodes g) (AbsC.initC comps (fun n => (g.seekStart T G n).c)).st := by
  rw [AbsC.initC_st]; exact inv_init h

/-! ## Forgetting the costs -/

theorem seekTry_forget (T : SeekTech) (G : SeekGoal) (a : SeekEnt) (g : Grid) (q : List SeekEnt) (d : Dir) :
    Grid.tryExpand a.e (g, q.map (·.e)) d =
      ((Grid.seekTry T G a (g, q) d).1, (Grid.seekTry T G a (g, q) d).2.map (·.e)) := by
  simp only [Grid.tryExpand, Grid.seekTry, Grid.expand, Grid.seekExpand]
  split
  · split
    · split <;> simp
    · simp
  · rfl

theorem seekFold_forget (T : SeekTech) (G : SeekGoal) (a : SeekEnt) (ds : List Dir) : ∀ (g : Grid) (q : List SeekEnt),
    ds.foldl (Grid.tryExpand a.e) (g, q.map (·.e)) =
      ((ds.foldl (Grid.seekTry T G a) (g, q)).1, (ds.foldl (Grid.seekTry T G a) (g, q)).2.map (·.e)) := by
  induction ds with
  | nil => intro g q; rfl
  | cons d ds ih =>
    intro g q
    rw [List.foldl_cons, seekTry_forget T G, ih]
    rfl

theorem searchLoop_congr (p p' : Nat → Nat) : ∀ (f k : Nat) (g : Grid) (q : List GEnt), (∀ j ≥ k, p j = p' j) →
    Grid.searchLoop p f k g q = Grid.searchLoop p' f k g q
  | 0, _, _, _, _ => rfl
  | f + 1, k, g, q, h => by
    have ih := searchLoop_congr p p' f (k + 1)
    simp only [Grid.searchLoop, h k (Nat.le_refl _)]
    split
    · rfl
    · rw [ih _ _ (fun j hj => h j (by omega)), ih _ _ (fun j hj => h j (by omega))]

theorem seekLoop_forget (T : SeekTech) (G : SeekGoal) (top : List SeekEnt → Nat) (ht : IsTop top) (f : Nat) :
    ∀ (k : Nat) (g : Grid) (q : List SeekEnt), ∃ pick : Nat → Nat,
      Grid.searchLoop pick f k g (q.map (·.e)) =
        (Grid.seekLoop T G top f g q).map (fun r => (r.1, r.2.map (·.e))) := by
  induction f with
  | zero => intro k g q; exact ⟨fun _ => 0, rfl⟩
  | succ f ih =>
    intro k g q
    by_cases hq : q = []
    · subst hq
      exact ⟨fun _ => 0, by simp [Grid.searchLoop, Grid.seekLoop]⟩
    obtain ⟨a, ha, _⟩ := ht q hq
    have hlt : top q < q.length := (List.getElem?_eq_some_iff.1 ha).1
    have hmod : top q % q.length = top q := Nat.mod_eq_of_lt hlt
    have hget : (q.map (·.e))[top q]? = some a.e := by rw [List.getElem?_map, ha]; rfl
    obtain ⟨p1, h1⟩ := ih (k + 1) g (q.eraseIdx (top q))
    obtain ⟨p2, h2⟩ := ih (k + 1) (g.seekWavefront T G (q.eraseIdx (top q)) a).1 (g.seekWavefront T G (q.eraseIdx (top q)) a).2
    have hf := seekFold_forget T G a [Dir.N, .E, .S, .W, .U, .D] g (q.eraseIdx (top q))
    by_cases hp : g.getPrevDir a.e.n ≠ .UNKNOWN
    · refine ⟨fun j => if j = k then top q else p1 j, ?_⟩
      simp only [Grid.searchLoop, Grid.seekLoop, if_true, List.length_map, hmod, hget, ha, if_pos hp, eraseIdx_map]
      rw [searchLoop_congr _ p1 f (k + 1) _ _ (fun j hj => by rw [if_neg (by omega)]), h1]
    · by_cases hd : g.isDst a.e.n = true
      · refine ⟨fun _ => top q, ?_⟩
        simp only [Grid.searchLoop, Grid.seekLoop, List.length_map, hmod, hget, ha, if_neg hp, if_pos hd]
        rfl
      · refine ⟨fun j => if j = k then top q else p2 j, ?_⟩
        simp only [Grid.searchLoop, Grid.seekLoop, if_true, List.length_map, hmod, hget, ha, if_neg hp, if_neg hd, eraseIdx_map]
        have hw : g.expandWavefront ((q.eraseIdx (top q)).map (·.e)) a.e =
            ((g.seekWavefront T G (q.eraseIdx (top q)) a).1, (g.seekWavefront T G (q.eraseIdx (top q)) a).2.map (·.e)) := hf
        rw [hw]
        rw [searchLoop_congr _ p2 f (k + 1) _ _ (fun j hj => by rw [if_neg (by omega)]), h2]

/-- the costed search is the search of C14–C17 with the entry order given by the costs -/
theorem seek_forget (g : Grid) (T : SeekTech) (center : Point) (top : List SeekEnt → Nat) (ht : IsTop top)
    (fuel : Nat) (comps aps : List MIdx) : ∃ pick : Nat → Nat,
      g.search pick fuel comps = (g.seek T center top fuel comps aps).map (·.1) := by
  obtain ⟨pick, h⟩ := seekLoop_forget T ⟨(g.pinBox aps).1, (g.pinBox aps).2, center⟩ top ht fuel 0 g
    (comps.map (g.seekStart T ⟨(g.pinBox aps).1, (g.pinBox aps).2, center⟩))
  refine ⟨pick, ?_⟩
  unfold Grid.search Grid.seek
  cases comps.find? g.isDst with
  | some i => rfl
  | none =>
    simp only [List.map_map] at h ⊢
    have hs : comps.map ((fun x : SeekEnt => x.e) ∘ g.seekStart T ⟨(g.pinBox aps).1, (g.pinBox aps).2, center⟩) =
        comps.map (fun n => (⟨n, 0#6⟩ : GEnt)) := List.map_congr_left (fun _ _ => rfl)
    rw [hs] at h
    rw [h]
    cases Grid.seekLoop T ⟨(g.pinBox aps).1, (g.pinBox aps).2, center⟩ top fuel g
      (comps.map (g.seekStart T ⟨(g.pinBox aps).1, (g.pinBox aps).2, center⟩)) with
    | none => rfl
    | some r =>
      rcases r with ⟨g', _ | a⟩
      · rfl
      · simp only [Option.map_some]
        cases g'.traceBackPath fuel a.e <;> rfl

end TR
