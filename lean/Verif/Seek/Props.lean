import Verif.Seek.Sim
/-! Property theorems C91–C94: costs of the maze search. -/
namespace TR
open Abs (back nbr_back back_push View Ent St)
open AbsC (CE CSt Sys)

/-! ## The abstract system of the grid -/

theorem nextPathCost_lo (g : Grid) (T : SeekTech) (c : SeekCost) (n : MIdx) (l d : Dir) :
    c.path + (if l ≠ d ∧ l ≠ .UNKNOWN then 1 else 0) + g.edgeCost T n d ≤ g.nextPathCost T c n l d := by
  unfold Grid.nextPathCost
  dsimp only
  omega

theorem gap_le_edgeCost {g : Grid} {T : SeekTech} (hc : g.Coords T) (n : MIdx) (d : Dir) (h1 : g.On n)
    (h2 : g.On (n.nbr d)) : g.gap T n (n.nbr d) ≤ g.edgeCost T n d := by
  rw [← edgeLen_gap hc n d h1 h2]
  unfold Grid.edgeCost
  dsimp only
  omega

/-- no history adds more than `κ` to a step -/
def HistBound (g : Grid) (T : SeekTech) (κ : Nat) : Prop :=
  1 ≤ κ ∧ ∀ c n l d, g.hasEdge n d = true → g.nextPathCost T c n l d ≤ c.path + g.edgeCost T n d + κ

theorem seekSys_ok {g : Grid} {T : SeekTech} (hc : g.Coords T) (hE : EdgesOn g) (G : SeekGoal) {κ : Nat}
    (hk : HistBound g T κ) : (seekSys g T G κ).OK where
  lo := by
    intro k n l d _
    have := nextPathCost_lo g T k n l d
    show k.path + g.edgeCost T n d ≤ g.nextPathCost T k n l d
    omega
  hi := by
    intro k n l d he
    exact hk.2 k n l d he
  fcx := by
    intro k n l d
    show (g.nextPathCost T k n l d) + g.estCost T G.lo G.hi (nextGrid n d) d = _
    rw [nextGrid_eq]; rfl
  cons := by
    intro k n l d he
    have he' : g.hasEdge n d = true := he
    have hdU : d ≠ .UNKNOWN := by
      rintro rfl; rw [hasEdge_unknown] at he'; simp at he'
    have h1 := nextPathCost_lo g T k n l d
    have h2 := est_step (g := g) (T := T) G.lo G.hi n l d hdU
    have h3 := gap_le_edgeCost hc n d (hE _ _ he').1 (hE _ _ he').2
    show k.path + g.estCost T G.lo G.hi n l ≤ g.nextPathCost T k n l d + g.estCost T G.lo G.hi (n.nbr d) d
    omega
  eps := by
    intro n l l' hl
    have := est_dirs (g := g) (T := T) G.lo G.hi n l l' hl
    have := hk.1
    show g.estCost T G.lo G.hi n l ≤ g.estCost T G.lo G.hi n l' + κ
    omega

/-! ## What the search returns -/

/-- what is known of a frontier entry -/
def EntryOK (g : Grid) (T : SeekTech) (comps : List MIdx) (a : CE SeekCost) : Prop :=
  ∃ s w, s ∈ comps ∧ g.Walks s w a.e.n ∧ a.e.walk = w.nodes a.e.n ∧ w.last = a.e.d1 ∧ Matches g T w a.k

theorem entryOK_push {g : Grid} {T : SeekTech} (hc : g.Coords T) (hE : EdgesOn g) (G : SeekGoal) (κ : Nat)
    (comps : List MIdx) (a : CE SeekCost) (d : Dir) (h : EntryOK g T comps a) (he : g.hasEdge a.e.n d = true) :
    EntryOK g T comps (AbsC.pushC (seekSys g T G κ) a d) := by
  obtain ⟨s, w, h1, h2, h3, h4, h5⟩ := h
  have hdU : d ≠ .UNKNOWN := by
    rintro rfl; rw [hasEdge_unknown] at he; simp at he
  refine ⟨s, (a.e.n, d) :: w, h1, .step w a.e.n d h2 he, ?_, rfl, ?_⟩
  · show a.e.n.nbr d :: a.e.walk = _
    rw [h3]; rfl
  · have := matches_step h5 hc G a.e.n d hdU (hE _ _ he).1 (hE _ _ he).2
    rw [h4] at this
    exact this

theorem seek_entry {g : Grid} {T : SeekTech} {comps aps : List MIdx} {center top fuel r cost}
    (hr : g.SeekReady T comps aps)
    (h : g.seek T center top fuel comps aps = some (r, cost)) (hf : r.found = true) (κ : Nat) :
    (∃ s ∈ comps, g.isDst s = true ∧ cells r.path = [s] ∧ cost = 0) ∨
    ∃ (s' : CSt SeekCost) (a : CE SeekCost),
      AbsC.loopC (seekSys g T ⟨(g.pinBox aps).1, (g.pinBox aps).2, center⟩ κ) (fun q => top (q.map eraseC)) fuel
        (AbsC.initC comps (fun n => (g.seekStart T ⟨(g.pinBox aps).1, (g.pinBox aps).2, center⟩ n).c)) =
        some (s', some a) ∧ EntryOK g T comps a ∧ g.isDst a.e.n = true ∧ cells r.path = a.e.walk ∧ cost = a.k.path := by
  unfold Grid.seek at h
  dsimp only at h
  split at h
  · rename_i idx hfd
    simp only [Option.some.injEq, Prod.mk.injEq] at h
    obtain ⟨h1, h2⟩ := h
    subst h1
    left
    exact ⟨idx, List.mem_of_find?_eq_some hfd, List.find?_some hfd, by simp [cells, openCells], h2.symm⟩
  · rename_i hfd
    right
    generalize hG : (⟨(g.pinBox aps).1, (g.pinBox aps).2, center⟩ : SeekGoal) = G at *
    have hE := hr.ready.edges
    rcases simC_loop T G κ hE top fuel g _ _ (simC_init T G hr.ready) (invC_init T G hr.ready) with
      ⟨_, h2⟩ | ⟨s', re, g', q', h1, h2, h3⟩
    · rw [h2] at h; simp at h
    · rw [h2] at h
      cases re with
      | none =>
        simp only [Option.map_none, Option.some.injEq, Prod.mk.injEq] at h
        rw [← h.1] at hf; simp at hf
      | some a =>
        simp only [Option.map_some] at h
        have := AbsC.loopC_entry (S := seekSys g T G κ) (edgesIn_gview hE) _ (EntryOK g T comps)
          (fun a d ha he => entryOK_push hr.coords hE G κ comps a d ha he) fuel _ _ _ (invC_init T G hr.ready)
          (by
            intro b hb
            obtain ⟨n, hn, rfl⟩ := List.mem_map.1 hb
            exact ⟨n, [], hn, .here, rfl, rfl, matches_start g T _ _⟩) h1
        obtain ⟨p1, heok, hdst⟩ := this
        simp only [seekSys, gview, Bool.and_eq_true, decide_eq_true_eq] at hdst
        have hns : g.isSrc a.e.n = false := by
          cases hs : g.isSrc a.e.n with
          | false => rfl
          | true => exact absurd hdst.2 (List.find?_eq_none.1 hfd _ ((hr.ready.src _ hdst.1).1 hs))
        split at h
        · simp at h
        · rename_i t ht
          obtain ⟨t', a1, _, _, _, a5, _⟩ := trace_walk h3.sim a.e heok hns (max fuel a.e.walk.length) (Nat.le_max_right _ _)
          have ht' : g'.traceBackPath fuel (erase a.e) = some t := ht
          rw [traceBack_fuel g' fuel _ (Nat.le_max_left _ _) _ _ ht'] at a1
          simp only [Option.some.injEq] at a1
          subst a1
          simp only [Option.some.injEq, Prod.mk.injEq] at h
          refine ⟨s', a, h1, p1, hdst.2, ?_, h.2.symm⟩
          rw [← h.1]; exact a5

/-- C91: the cost the search attaches to the path it reports is exactly the cost of that path: the
sum over its steps of the weight of the edge, 1 for every change of direction, and the penalties
for vias at a forbidden distance from the via before and for planar turns at a forbidden distance
from it. -/
theorem c91_cost_of_path (g : Grid) (T : SeekTech) (center : Point) (top : List SeekEnt → Nat) (fuel : Nat)
    (comps aps : List MIdx) (r : SearchResult) (cost : Nat) (hr : g.SeekReady T comps aps)
    (h : g.seek T center top fuel comps aps = some (r, cost)) (hf : r.found = true) :
    ∃ s w n, s ∈ comps ∧ g.Walks s w n ∧ g.isDst n = true ∧ cells r.path = w.nodes n ∧ cost = Walk.cost g T w := by
  rcases seek_entry hr h hf 0 with ⟨s, h1, h2, h3, h4⟩ | ⟨_, a, _, ⟨s, w, h1, h2, h3, h4, h5⟩, h6, h7, h8⟩
  · exact ⟨s, [], s, h1, .here, h2, h3, h4⟩
  · exact ⟨s, w, a.e.n, h1, h2, h6, h7.trans h3, by rw [h8, h5.path]⟩

/-! ## Walks as direction lists -/

theorem pathV_append (V : View) : ∀ (ds es : List Dir) (n : MIdx),
    AbsC.PathV V n (ds ++ es) ↔ AbsC.PathV V n ds ∧ AbsC.PathV V (AbsC.endOf n ds) es
  | [], es, n => by simp [AbsC.PathV, AbsC.endOf]
  | d :: ds, es, n => by
    simp only [List.cons_append, AbsC.PathV, AbsC.endOf, pathV_append V ds es, and_assoc]

theorem endOf_append : ∀ (ds es : List Dir) (n : MIdx), AbsC.endOf n (ds ++ es) = AbsC.endOf (AbsC.endOf n ds) es
  | [], _, _ => rfl
  | d :: ds, es, n => endOf_append ds es (n.nbr d)

theorem bound_append (S : Sys SeekCost) : ∀ (ds es : List Dir) (n : MIdx),
    S.bound n (ds ++ es) = S.bound n ds + S.bound (AbsC.endOf n ds) es
  | [], _, _ => by simp [Sys.bound, AbsC.endOf]
  | d :: ds, es, n => by
    simp only [List.cons_append, Sys.bound, AbsC.endOf, bound_append S ds es (n.nbr d)]; omega

theorem walk_dirs {g : Grid} {T : SeekTech} (hc : g.Coords T) (hE : EdgesOn g) (G : SeekGoal) (κ : Nat) {s w n}
    (h : g.Walks s w n) :
    AbsC.PathV (gview g) s (w.map (·.2)).reverse ∧ AbsC.endOf s (w.map (·.2)).reverse = n ∧
      (seekSys g T G κ).bound s (w.map (·.2)).reverse = Walk.bare g T w + 2 * κ * w.length := by
  induction h with
  | here => simp [AbsC.PathV, AbsC.endOf, Sys.bound, Walk.bare]
  | step w n d _ he ih =>
    obtain ⟨i1, i2, i3⟩ := ih
    simp only [List.map_cons, List.reverse_cons]
    rw [pathV_append, endOf_append, bound_append, i2, i3]
    refine ⟨⟨i1, he, trivial⟩, rfl, ?_⟩
    have h1 := edgeCost_weight hc n d (hE _ _ he).1 (hE _ _ he).2
    have e1 : (seekSys g T G κ).bound n [d] = g.weight T n d + 2 * κ := by rw [← h1]; rfl
    rw [e1]
    simp only [Walk.bare, List.map_cons, List.sum_cons, List.length_cons, Nat.mul_add, Nat.mul_one]
    omega

theorem walk_end_on {g : Grid} {comps} (hr : g.Ready comps) {s w n} (hs : s ∈ comps) (h : g.Walks s w n) : g.On n := by
  cases h with
  | here => exact hr.on _ hs
  | step w n d _ he => exact (hr.edges _ _ he).2

theorem isTop_min {top : List SeekEnt → Nat} (ht : IsTop top) (g : Grid) (T : SeekTech) (G : SeekGoal) (κ : Nat) :
    AbsC.MinTop (seekSys g T G κ) (fun q => top (q.map eraseC)) := by
  intro q hq
  obtain ⟨a, h1, h2⟩ := ht (q.map eraseC) (by simpa using hq)
  rw [List.getElem?_map] at h1
  cases hc : q[top (q.map eraseC)]? with
  | none => rw [hc] at h1; simp at h1
  | some b =>
    rw [hc] at h1
    simp only [Option.map_some, Option.some.injEq] at h1
    subst h1
    refine ⟨b, rfl, fun c hcm => ?_⟩
    have := h2 (eraseC c) (List.mem_map.2 ⟨c, hcm, rfl⟩)
    simp only [WavePrefer, SeekEnt.key, eraseC, not_or] at this
    show b.k.cost ≤ c.k.cost
    omega

theorem near_optimal {g : Grid} {T : SeekTech} {comps aps : List MIdx} {center top fuel r cost}
    (hr : g.SeekReady T comps aps) (ht : IsTop top)
    (h : g.seek T center top fuel comps aps = some (r, cost)) (hf : r.found = true) {κ : Nat} (hk : HistBound g T κ)
    (s : MIdx) (w : Walk) (n : MIdx) (hs : s ∈ comps) (hw : g.Walks s w n) (hn : g.isDst n = true) :
    cost ≤ Walk.bare g T w + 2 * κ * w.length := by
  rcases seek_entry hr h hf κ with ⟨s0, _, _, _, h4⟩ | ⟨s', a, hl, _, _, _, h8⟩
  · omega
  · generalize hG : (⟨(g.pinBox aps).1, (g.pinBox aps).2, center⟩ : SeekGoal) = G at *
    have hE := hr.ready.edges
    obtain ⟨w1, w2, w3⟩ := walk_dirs hr.coords hE G κ hw
    have hon := walk_end_on hr.ready hs hw
    have hsrc : ∀ r, (gview g).src r = true → r ∈ comps := by
      intro r hh
      simp [gview] at hh
      exact (hr.ready.src r hh.1).1 hh.2
    have := AbsC.loopC_near (S := seekSys g T G κ) (seekSys_ok hr.coords hE G hk) (edgesIn_gview hE) _
      (isTop_min ht g T G κ) fuel _ _ _ (invC_init T G hr.ready) (fun _ _ => rfl)
      ⟨_, _, _, AbsC.track_init comps _ hsrc (fun _ => rfl) (fun _ => rfl)⟩ hl s (List.map (fun st : MIdx × Dir => st.2) w).reverse
      (by simp [seekSys, gview, hr.ready.on s hs, (hr.ready.src s (hr.ready.on s hs)).2 hs]) w1
      (by rw [w2]; simp [seekSys, gview, hon, hn])
      (by
        rw [w2]; intro l
        subst hG
        exact est_ap hr.coords aps hr.apsOn n (hr.dst n hon hn) l)
    rw [w3] at this
    rw [h8]; exact this

theorem bare_le_cost (g : Grid) (T : SeekTech) : ∀ w : Walk, Walk.bare g T w ≤ Walk.cost g T w
  | [] => Nat.le_refl _
  | (n, d) :: w => by
    have := bare_le_cost g T w
    simp only [Walk.bare, List.map_cons, List.sum_cons, Walk.cost, Walk.stepCost] at this ⊢
    omega

theorem hist_bound_max {g : Grid} {T : SeekTech} (hc : g.Coords T) (hE : EdgesOn g) (K : Nat)
    (hK : ∀ n d, g.hasEdge n d = true → max T.drc T.marker * g.gap T n (n.nbr d) ≤ K) : HistBound g T (K + 1) := by
  refine ⟨by omega, fun c n l d he => ?_⟩
  have h1 := hK n d he
  unfold Grid.nextPathCost
  dsimp only
  rw [edgeLen_gap hc n d (hE _ _ he).1 (hE _ _ he).2]
  have h2 : T.drc * g.gap T n (n.nbr d) ≤ K := Nat.le_trans (Nat.mul_le_mul_right _ (Nat.le_max_left _ _)) h1
  have h3 : T.marker * g.gap T n (n.nbr d) ≤ K := Nat.le_trans (Nat.mul_le_mul_right _ (Nat.le_max_right _ _)) h1
  have b : (if l ≠ d ∧ l ≠ Dir.UNKNOWN then 1 else 0) ≤ 1 := by split <;> omega
  by_cases hv : d.vert = true
  · rw [badTurn_vert T c n.z l d hv]
    simp only [Bool.false_eq_true, if_false, ite_self, Nat.add_zero]
    have : (if d.vert = true then if T.viaPair c n.z d = true then
        (if T.late = true then T.marker * g.gap T n (n.nbr d) else T.drc * g.gap T n (n.nbr d)) else 0 else 0) ≤ K := by
      repeat' split
      all_goals omega
    omega
  · rw [if_neg hv]
    have : (if l ≠ Dir.UNKNOWN ∧ l ≠ d then if T.badTurn c n.z l d = true then
        (if T.late = true then T.drc * g.gap T n (n.nbr d) else T.marker * g.gap T n (n.nbr d)) else 0 else 0) ≤ K := by
      repeat' split
      all_goals omega
    omega

theorem hist_bound_free {g : Grid} {T : SeekTech} (h1 : T.v2v = []) (h2 : T.vturn = []) : HistBound g T 1 := by
  refine ⟨by omega, fun c n l d _ => ?_⟩
  have hv : T.viaPair c n.z d = false := by
    simp [SeekTech.viaPair, SeekTech.v2vForbidden, h1]
  have ht : T.badTurn c n.z l d = false := by
    simp [SeekTech.badTurn, SeekTech.turnForbidden, h2]
  unfold Grid.nextPathCost
  dsimp only
  rw [hv, ht]
  simp only [Bool.false_eq_true, if_false, ite_self, Nat.add_zero]
  split <;> omega

/-- C93: the path the search reports costs at most as much as any other walk from the source
component to a destination, plus a fixed amount per step of that walk: twice one more than the
largest forbidden-distance penalty an edge can carry. -/
theorem c93_near_optimal (g : Grid) (T : SeekTech) (center : Point) (top : List SeekEnt → Nat) (fuel : Nat)
    (comps aps : List MIdx) (r : SearchResult) (cost K : Nat) (hr : g.SeekReady T comps aps) (ht : IsTop top)
    (hK : ∀ n d, g.hasEdge n d = true → max T.drc T.marker * g.gap T n (n.nbr d) ≤ K)
    (h : g.seek T center top fuel comps aps = some (r, cost)) (hf : r.found = true)
    (s : MIdx) (w : Walk) (n : MIdx) (hs : s ∈ comps) (hw : g.Walks s w n) (hn : g.isDst n = true) :
    (∃ s0 w0 n0, s0 ∈ comps ∧ g.Walks s0 w0 n0 ∧ cells r.path = w0.nodes n0 ∧ Walk.cost g T w0 = cost) ∧
    cost ≤ Walk.bare g T w + 2 * (K + 1) * w.length := by
  refine ⟨?_, near_optimal hr ht h hf (hist_bound_max hr.coords hr.ready.edges K hK) s w n hs hw hn⟩
  obtain ⟨s0, w0, n0, a, b, _, c, d⟩ := c91_cost_of_path g T center top fuel comps aps r cost hr h hf
  exact ⟨s0, w0, n0, a, b, c, d.symm⟩

/-- C93: without forbidden distances the reported path exceeds the cheapest one by at most 2 per
step of the latter, whatever the lengths and cost factors. -/
theorem c93_without_tables (g : Grid) (T : SeekTech) (center : Point) (top : List SeekEnt → Nat) (fuel : Nat)
    (comps aps : List MIdx) (r : SearchResult) (cost : Nat) (hr : g.SeekReady T comps aps) (ht : IsTop top)
    (h1 : T.v2v = []) (h2 : T.vturn = [])
    (h : g.seek T center top fuel comps aps = some (r, cost)) (hf : r.found = true) :
    ∃ s0 w0 n0, s0 ∈ comps ∧ g.Walks s0 w0 n0 ∧ cells r.path = w0.nodes n0 ∧
      ∀ s w n, s ∈ comps → g.Walks s w n → g.isDst n = true →
        Walk.cost g T w0 ≤ Walk.cost g T w + 2 * w.length := by
  obtain ⟨s0, w0, n0, a, b, _, c, d⟩ := c91_cost_of_path g T center top fuel comps aps r cost hr h hf
  refine ⟨s0, w0, n0, a, b, c, fun s w n hs hw hn => ?_⟩
  have := near_optimal hr ht h hf (hist_bound_free h1 h2) s w n hs hw hn
  have := bare_le_cost g T w
  omega

/-! ## The estimate -/

/-- C92: the estimate is a lower bound: whatever way a walk continues to an access point of the pin,
it costs at least what it has cost so far plus the estimate. -/
theorem c92_estimate_is_lower_bound (g : Grid) (T : SeekTech) (comps aps : List MIdx) (hr : g.SeekReady T comps aps)
    (s n m : MIdx) (w : Walk) (hw : g.Walks s w n) (hm : m ∈ aps) :
    ∀ v : Walk, g.Walks s (v ++ w) m →
      Walk.cost g T w + g.estCost T (g.pinBox aps).1 (g.pinBox aps).2 n w.last ≤ Walk.cost g T (v ++ w) := by
  have hE := hr.ready.edges
  have key : ∀ v : Walk, ∀ m, g.Walks s (v ++ w) m →
      Walk.cost g T w + g.estCost T (g.pinBox aps).1 (g.pinBox aps).2 n w.last ≤
        Walk.cost g T (v ++ w) + g.estCost T (g.pinBox aps).1 (g.pinBox aps).2 m (Walk.last (v ++ w)) := by
    intro v
    induction v with
    | nil =>
      intro m hv
      have : m = n := by
        simp only [List.nil_append] at hv
        cases hw with
        | here => cases hv; rfl
        | step w n d => cases hv; rfl
      subst this
      exact Nat.le_refl _
    | cons st v ih =>
      intro m hv
      rcases st with ⟨a, d⟩
      simp only [List.cons_append] at hv ⊢
      cases hv with
      | step _ _ _ hv he =>
        have h1 := ih a hv
        have hdU : d ≠ .UNKNOWN := by
          rintro rfl; rw [hasEdge_unknown] at he; simp at he
        have h2 := est_step (g := g) (T := T) (g.pinBox aps).1 (g.pinBox aps).2 a (Walk.last (v ++ w)) d hdU
        have h3 := gap_le_edgeCost hr.coords a d (hE _ _ he).1 (hE _ _ he).2
        rw [edgeCost_weight hr.coords a d (hE _ _ he).1 (hE _ _ he).2] at h3
        have hb : (if Walk.last (v ++ w) ≠ d ∧ Walk.last (v ++ w) ≠ .UNKNOWN then 1 else 0) ≤
            (if v ++ w ≠ [] ∧ Walk.last (v ++ w) ≠ d then 1 else 0) := by
          by_cases hh : v ++ w = []
          · rw [hh]; simp [Walk.last]
          · split
            · rename_i h; rw [if_pos ⟨hh, h.1⟩]; exact Nat.le_refl _
            · exact Nat.zero_le _
        simp only [Walk.cost, Walk.stepCost]
        show _ ≤ _ + g.estCost T _ _ _ d
        omega
  intro v hv
  have h1 := key v m hv
  have h2 := est_ap hr.coords aps hr.apsOn m hm (Walk.last (v ++ w))
  omega

/-- C92: at an access point of the pin the estimate is 0. -/
theorem c92_zero_at_pin (g : Grid) (T : SeekTech) (comps aps : List MIdx) (hr : g.SeekReady T comps aps)
    (m : MIdx) (hm : m ∈ aps) (l : Dir) : g.estCost T (g.pinBox aps).1 (g.pinBox aps).2 m l = 0 :=
  est_ap hr.coords aps hr.apsOn m hm l

/-- C92: for a pin with one access point the estimate is the distance to it plus one for every axis
along which the node differs from it and along which the walk is not moving already. -/
theorem c92_estimate_for_one_point (g : Grid) (T : SeekTech) (m n : MIdx) (l : Dir) (hm : g.On m) (hl : l ≠ .UNKNOWN) :
    g.estCost T (g.pinBox [m]).1 (g.pinBox [m]).2 n l = g.gap T n m
      + (if coordAt g.xs n.x ≠ coordAt g.xs m.x ∧ l.alongX = false then 1 else 0)
      + (if coordAt g.ys n.y ≠ coordAt g.ys m.y ∧ l.alongY = false then 1 else 0)
      + (if coordAt T.heights n.z ≠ coordAt T.heights m.z ∧ l.vert = false then 1 else 0) := by
  unfold Grid.On at hm
  have hb : g.pinBox [m] = (m, m) := by
    rcases m with ⟨x, y, z⟩
    simp only [Grid.pinBox, List.foldl_cons, List.foldl_nil, Grid.X, Grid.Y, Grid.Z, Prod.mk.injEq, MIdx.mk.injEq] at hm ⊢
    omega
  have ho : ∀ u v : Int, outside u u v = (v - u).natAbs := by intro u v; unfold outside; omega
  rw [hb]
  simp only [Grid.estCost, Grid.gap, ho]
  have hz : ∀ u v : Int, (u - v).natAbs ≠ 0 ↔ u ≠ v := by intro u v; omega
  simp only [hz]
  cases l <;> first | exact absurd rfl hl | simp [Dir.alongX, Dir.alongY, Dir.vert]

/-! ## What carries over from the search without costs -/

/-- C94: whatever the costs, the factors, the tables and the tie-breaking, the search with costs
finds a path exactly when a destination is reachable, and every path it reports is one that the
cost-free analysis of the search covers: simple, over existing edges, from a destination to the
source component, touching neither set in between. -/
theorem c94_costs_do_not_matter (g : Grid) (T : SeekTech) (center : Point) (top : List SeekEnt → Nat) (fuel : Nat)
    (comps aps : List MIdx) (r : SearchResult) (cost : Nat) (hr : g.Ready comps) (ht : IsTop top)
    (h : g.seek T center top fuel comps aps = some (r, cost)) :
    (r.found = true ↔ ∃ n, g.Reach comps n ∧ g.isDst n = true) ∧
    (r.found = true →
      (∃ a, r.path.head? = some a ∧ g.isDst a = true) ∧ (∃ b, r.path.getLast? = some b ∧ b ∈ comps) ∧
      Consecutive (fun u v => ∃ d, v = u.nbr d ∧ g.hasEdge u d = true) (cells r.path) ∧
      (cells r.path).Nodup ∧ (∀ m ∈ (cells r.path).tail, g.isDst m = false) ∧
      (∀ m ∈ (cells r.path).dropLast, m ∉ comps) ∧ r.comps = comps ++ (cells r.path).dropLast ∧ r.warn = false) := by
  obtain ⟨pick, hp⟩ := seek_forget g T center top ht fuel comps aps
  rw [h] at hp
  simp only [Option.map_some] at hp
  refine ⟨c16_finds_iff_reachable g comps pick fuel r hr hp, fun hf => ?_⟩
  obtain ⟨a1, a2, _, _, _, a6, a7, a8, _⟩ := c14_path_is_routable g comps pick fuel r hr hp hf
  obtain ⟨b1, b2, b3⟩ := c17_path_simple g comps pick fuel r hr hp hf
  exact ⟨a1, a2, a6, b1, b2, b3, a8, a7⟩

/-- C91: a via is never penalised for its distance from a turn before it: the table of forbidden
turn distances has no influence on the cost of a step up or down. -/
theorem c91_via_after_turn_not_penalised (g : Grid) (T : SeekTech) (tbl : List LenTable) (c : SeekCost) (n : MIdx)
    (last d : Dir) (hd : d = .U ∨ d = .D) :
    g.nextPathCost { T with vturn := tbl } c n last d = g.nextPathCost T c n last d := by
  have hv : d.vert = true := by rcases hd with rfl | rfl <;> rfl
  unfold Grid.nextPathCost
  rw [badTurn_vert _ c n.z last d hv, badTurn_vert _ c n.z last d hv]
  rfl

end TR
