import Verif.Astar.PathLemmas
import Verif.Maze.EdgeProps
import Verif.Maze.LabelProps
/-! The search on the grid storage follows the abstract search. -/
namespace TR
open Abs (back nbr_back back_push View Ent St)

def enc (d1 d2 : Dir) : BitVec 6 := BitVec.ofNat 6 (d2.code * 8 + d1.code)

theorem enc_last (d1 d2 : Dir) : bufLastDir (enc d1 d2) = d1 := by cases d1 <;> cases d2 <;> decide

theorem enc_shift (d1 d2 d : Dir) : bufShiftAdd (enc d1 d2) d = (d2, enc d d1) := by
  cases d1 <;> cases d2 <;> cases d <;> decide

theorem enc_shr (d1 d2 : Dir) : enc d1 d2 >>> 3 = enc d2 .UNKNOWN := by
  cases d1 <;> cases d2 <;> decide

theorem enc_low (d1 d2 : Dir) : Dir.ofCode (enc d1 d2 - ((enc d1 d2 >>> 3) <<< 3)).toNat = d1 := by
  cases d1 <;> cases d2 <;> decide

theorem tailIdx_enc (n : MIdx) (d1 d2 : Dir) : tailIdx n (enc d1 d2) = back (back n d1) d2 := by
  have a := enc_low d1 d2
  have b := enc_low d2 .UNKNOWN
  simp only [enc_shr] at a b
  simp only [tailIdx, enc_shr, prevGrid_eq, a, b]

def erase (e : Ent) : GEnt := ⟨e.n, enc e.d1 e.d2⟩

def gview (g : Grid) : View where
  edge := g.hasEdge
  src := fun n => decide (g.On n) && g.isSrc n
  dst := fun n => decide (g.On n) && g.isDst n

def gnodes (g : Grid) : List MIdx :=
  (List.range g.xs.length).flatMap fun x : Nat => (List.range g.ys.length).flatMap fun y : Nat =>
    (List.range g.zs.length).map fun z : Nat => ⟨x, y, z⟩

theorem mem_gnodes (g : Grid) (n : MIdx) : n ∈ gnodes g ↔ g.On n := by
  simp only [gnodes, List.mem_flatMap, List.mem_range, List.mem_map, Grid.On]
  constructor
  · rintro ⟨x, hx, y, hy, z, hz, rfl⟩
    simp only; omega
  · rintro ⟨h1, h2, h3, h4, h5, h6⟩
    refine ⟨n.x.toNat, by omega, n.y.toNat, by omega, n.z.toNat, by omega, ?_⟩
    rcases n with ⟨x, y, z⟩
    simp only [MIdx.mk.injEq] at *
    omega

theorem sum_map_const {α : Type} (l : List α) (c : Nat) : (l.map (fun _ => c)).sum = l.length * c := by
  induction l with
  | nil => simp
  | cons a l ih => simp [ih, Nat.add_mul]; omega

theorem gnodes_length (g : Grid) : (gnodes g).length = g.xs.length * (g.ys.length * g.zs.length) := by
  simp only [gnodes, List.length_flatMap, List.length_map, List.length_range]
  rw [sum_map_const, sum_map_const]
  simp

theorem hasEdge_unknown (g : Grid) (n : MIdx) : g.hasEdge n .UNKNOWN = false := by
  rw [hasEdge_key]; simp [edgeKey, edgeHome, byAxis]

/-- `g` is `g0` with other predecessor labels, and the labels and frontier agree with `s` -/
structure Sim (g0 g : Grid) (q : List GEnt) (s : St) : Prop where
  same : g = { g0 with prevs := g.prevs }
  prev : ∀ n, g0.On n → g.getPrevDir n = s.prev n
  q : q = s.q.map erase

theorem sim_on {g0 g : Grid} (h : g = { g0 with prevs := g.prevs }) (n : MIdx) : g.On n ↔ g0.On n := by
  rw [h]; exact Iff.rfl

theorem sim_edge {g0 g : Grid} (h : g = { g0 with prevs := g.prevs }) (n : MIdx) (d : Dir) :
    g.hasEdge n d = g0.hasEdge n d := by
  rw [h]; rfl

theorem sim_src {g0 g : Grid} (h : g = { g0 with prevs := g.prevs }) (n : MIdx) : g.isSrc n = g0.isSrc n := by
  rw [h]; rfl

theorem sim_dst {g0 g : Grid} (h : g = { g0 with prevs := g.prevs }) (n : MIdx) : g.isDst n = g0.isDst n := by
  rw [h]; rfl

def EdgesOn (g : Grid) : Prop := ∀ n d, g.hasEdge n d = true → g.On n ∧ g.On (n.nbr d)

theorem reverse_snd (n : MIdx) (d : Dir) : (reverse n d).2 = d.opp := by cases d <;> rfl

theorem sim_expandable {g0 g : Grid} {q s} (hE : EdgesOn g0) (h : Sim g0 g q s) (e : Ent) (d : Dir) :
    g.isExpandable (erase e) d = true ↔ Abs.expandable (gview g0) s.prev e d := by
  have h0 := sim_edge h.same e.n d
  simp only [Grid.isExpandable, Abs.expandable, gview]
  have hr : reverse (erase e).n d = (e.n.nbr d, d.opp) := by
    have a := nbr_reverse e.n d; have b := reverse_snd e.n d
    exact Prod.ext a b
  rw [hr]
  simp only [erase, enc_last, h0]
  by_cases he : g0.hasEdge e.n d = true
  · have hon := (hE _ _ he).2
    have h1 := sim_src h.same (e.n.nbr d)
    have h2 := h.prev _ hon
    rw [h1, h2]
    simp [he, hon]
    constructor
    · rintro ⟨⟨a, b⟩, c⟩; exact ⟨a, b, c⟩
    · rintro ⟨a, b, c⟩; exact ⟨⟨a, b⟩, c⟩
  · simp [he]

theorem sim_expandDir {g0 g : Grid} {q s} (hE : EdgesOn g0) (h : Sim g0 g q s) (e : Ent)
    (hw : g0.On (back e.n e.d1)) (d : Dir) :
    Sim g0 (Grid.tryExpand (erase e) (g, q) d).1 (Grid.tryExpand (erase e) (g, q) d).2
      (Abs.expandDir (gview g0) e s d) := by
  simp only [Grid.tryExpand, Abs.expandDir]
  by_cases hx : Abs.expandable (gview g0) s.prev e d
  · rw [if_pos ((sim_expandable hE h e d).2 hx), if_pos hx]
    simp only [Grid.expand, erase, enc_shift, tailIdx_enc, nextGrid_eq, back_push]
    rw [h.prev _ hw]
    by_cases h2 : e.d2 ≠ .UNKNOWN
    · rw [if_pos h2, if_pos h2]
      by_cases h3 : s.prev (back e.n e.d1) = .UNKNOWN ∨ s.prev (back e.n e.d1) = e.d2
      · rw [if_pos h3, if_pos h3]
        refine ⟨?_, ?_, ?_⟩
        · have := h.same
          simp only [Grid.setPrevDir]
          rw [this]
        · intro n hn
          have hon := sim_on h.same
          show (g.setPrevDir _ _).getPrevDir n = _
          rw [getPrev_setPrev g _ n _ ((hon _).2 hw) ((hon _).2 hn), h.prev n hn]
          rfl
        · rw [h.q]; simp [Abs.push, erase]
      · rw [if_neg h3, if_neg h3]; exact h
    · rw [if_neg h2, if_neg h2]
      refine ⟨h.same, h.prev, ?_⟩
      rw [h.q]; simp [Abs.push, erase]
  · rw [if_neg (fun hh => hx ((sim_expandable hE h e d).1 hh)), if_neg hx]; exact h

theorem sim_fold {g0 : Grid} (hE : EdgesOn g0) (e : Ent) (hw : g0.On (back e.n e.d1)) (ds : List Dir) :
    ∀ (g : Grid) (q s), Sim g0 g q s →
    Sim g0 (ds.foldl (Grid.tryExpand (erase e)) (g, q)).1 (ds.foldl (Grid.tryExpand (erase e)) (g, q)).2
      (ds.foldl (Abs.expandDir (gview g0) e) s) := by
  induction ds with
  | nil => intro g q s h; exact h
  | cons d ds ih =>
    intro g q s h
    have := sim_expandDir hE h e hw d
    exact ih _ _ _ this

theorem edgesIn_gview {g : Grid} (hE : EdgesOn g) : Abs.EdgesIn (gview g) (gnodes g) := by
  intro n d h
  refine ⟨(mem_gnodes g n).2 (hE n d h).1, (mem_gnodes g _).2 (hE n d h).2, ?_⟩
  rintro rfl
  have : g.hasEdge n .UNKNOWN = true := h
  rw [hasEdge_unknown] at this
  simp at this

theorem entOK_on {g : Grid} {p e} (h : Abs.EntOK (gview g) (gnodes g) p e) : g.On e.n ∧ g.On (back e.n e.d1) := by
  have hs := h.sub
  have sh := h.shape
  cases sh with
  | root n hr =>
    have : g.On n := (mem_gnodes g _).1 (hs (by simp))
    refine ⟨this, ?_⟩
    have : back n .UNKNOWN = n := by
      rcases n with ⟨a, b, c⟩; simp [back, MIdx.nbr, Dir.opp, Dir.delta]
    simp only [this]; assumption
  | one n d => exact ⟨(mem_gnodes g _).1 (hs (by simp)), (mem_gnodes g _).1 (hs (by simp))⟩
  | two n d1 d2 t => exact ⟨(mem_gnodes g _).1 (hs (by simp)), (mem_gnodes g _).1 (hs (by simp))⟩

theorem eraseIdx_map {α β : Type} (f : α → β) : ∀ (l : List α) (i : Nat), (l.map f).eraseIdx i = (l.eraseIdx i).map f
  | [], i => by simp
  | a :: l, 0 => by simp
  | a :: l, i + 1 => by simp [eraseIdx_map f l i]

theorem sim_loop {g0 : Grid} (hE : EdgesOn g0) (pick : Nat → Nat) (f : Nat) :
    ∀ (k : Nat) (g : Grid) (q : List GEnt) (s : St), Sim g0 g q s → Abs.Inv (gview g0) (gnodes g0) s →
      (Abs.loop (gview g0) pick f k s = none ∧ Grid.searchLoop pick f k g q = none) ∨
      ∃ s' r g' q', Abs.loop (gview g0) pick f k s = some (s', r) ∧
        Grid.searchLoop pick f k g q = some (g', r.map erase) ∧ Sim g0 g' q' s' := by
  induction f with
  | zero => intro k g q s _ _; left; exact ⟨rfl, rfl⟩
  | succ f ih =>
    intro k g q s h hi
    simp only [Abs.loop, Grid.searchLoop]
    have hlen : q.length = s.q.length := by rw [h.q]; simp
    have hget : q[pick k % q.length]? = (s.q[pick k % s.q.length]?).map erase := by
      rw [hlen, h.q, List.getElem?_map]
    have hq' : q.eraseIdx (pick k % q.length) = (s.q.eraseIdx (pick k % s.q.length)).map erase := by
      rw [hlen, h.q, eraseIdx_map]
    rw [hget, hq']
    cases hcase : s.q[pick k % s.q.length]? with
    | none =>
      right
      exact ⟨s, none, g, q, rfl, rfl, h⟩
    | some e =>
      have heok := hi e (List.mem_of_getElem? hcase)
      obtain ⟨hon, hw⟩ := entOK_on heok
      have hi' : Abs.Inv (gview g0) (gnodes g0) ⟨s.q.eraseIdx (pick k % s.q.length), s.prev⟩ :=
        fun a ha => hi a (Abs.eraseIdx_subset _ _ a ha)
      have hs' : Sim g0 g ((s.q.eraseIdx (pick k % s.q.length)).map erase)
        ⟨s.q.eraseIdx (pick k % s.q.length), s.prev⟩ := ⟨h.same, h.prev, rfl⟩
      simp only [Option.map_some]
      have hn : (erase e).n = e.n := rfl
      rw [hn, h.prev _ hon, sim_dst h.same]
      have hdst : (gview g0).dst e.n = g0.isDst e.n := by simp [gview, hon]
      by_cases hp : s.prev e.n ≠ .UNKNOWN
      · rw [if_pos hp, if_pos hp]
        exact ih _ _ _ _ hs' hi'
      · rw [if_neg hp, if_neg hp, hdst]
        by_cases hd : g0.isDst e.n = true
        · rw [if_pos hd, if_pos hd]
          right
          exact ⟨_, some e, g, _, rfl, rfl, hs'⟩
        · rw [if_neg hd, if_neg hd]
          refine ih _ _ _ _ ?_ (Abs.inv_expand (edgesIn_gview hE) hi' heok (by rw [hdst]; simpa using hd))
          exact sim_fold hE e hw _ _ _ _ hs'

/-! ## Trace-back -/

theorem traceGrid_chain {g0 g : Grid} {p : MIdx → Dir} (hsame : g = { g0 with prevs := g.prevs })
    (hp : ∀ n, g0.On n → g.getPrevDir n = p n) (w : List MIdx) (hc : Abs.Chain (gview g0) p w) :
    ∀ (fuel : Nat) (t : Trace), w.length ≤ fuel → (∀ m ∈ w, g0.On m) → w.head? = some t.cur → TraceInv t →
    ∃ t', g.traceGrid fuel t = some t' ∧ TraceInv t' ∧ t'.warn = t.warn ∧
      t'.root ++ [t'.cur] = t.root ++ w ∧ (t.path ≠ [] → t'.path ≠ []) ∧
      (t'.path ++ [t'.cur]).head? = (t.path ++ [t.cur]).head? := by
  induction hc with
  | root r hr =>
    intro fuel t hf hon hh hi
    simp only [List.head?_cons, Option.some.injEq] at hh
    subst hh
    obtain ⟨fuel, rfl⟩ : ∃ j, fuel = j + 1 := ⟨fuel - 1, by simp at hf; omega⟩
    have : g.isSrc t.cur = true := by
      rw [sim_src hsame]; simp [gview] at hr; exact hr.2
    refine ⟨t, by simp [Grid.traceGrid, this], hi, rfl, rfl, fun h => h, rfl⟩
  | step v d w h1 h2 h3 h4 _ ih =>
    intro fuel t hf hon hh hi
    simp only [List.head?_cons, Option.some.injEq] at hh
    subst hh
    obtain ⟨fuel, rfl⟩ : ∃ j, fuel = j + 1 := ⟨fuel - 1, by simp at hf; omega⟩
    have honv := hon t.cur (by simp)
    have : g.isSrc t.cur = false := by
      rw [sim_src hsame]; simp [gview, honv] at h1; exact h1
    obtain ⟨a1, a2, a3, a4, a5, a6⟩ := traceInv_step t d hi h4
    obtain ⟨t', b1, b2, b3, b4, b5, b6⟩ := ih fuel _ (by simp at hf ⊢; omega) (fun m hm => hon m (by simp at hm ⊢; exact Or.inr hm))
      (by rw [a2]; rfl) a1
    refine ⟨t', ?_, b2, by rw [b3, a5], ?_, fun _ => b5 a4, ?_⟩
    · simp only [Grid.traceGrid, this, hp _ honv, h3]
      simpa [h4] using b1
    · rw [b4, a3, List.append_assoc]; rfl
    · rw [b6]
      have : ∀ (l : List MIdx) (x : MIdx), l ≠ [] → (l ++ [x]).head? = l.head? := by
        intro l x hl
        cases l with
        | nil => exact absurd rfl hl
        | cons a l => rfl
      rw [this _ _ a4, a6]

theorem trace_walk {g0 g : Grid} {q s} (h : Sim g0 g q s) (e : Ent)
    (he : Abs.EntOK (gview g0) (gnodes g0) s.prev e) (hns : g0.isSrc e.n = false) (fuel : Nat)
    (hf : e.walk.length ≤ fuel) :
    ∃ t, g.traceBackPath fuel (erase e) = some t ∧ t.warn = false ∧ t.path ≠ [] ∧ t.path.head? = some e.n ∧
      cells t.path = e.walk ∧ t.root = e.walk.dropLast ∧ Consecutive Straight t.path ∧
      Consecutive (· ≠ ·) (legDirs t.path) := by
  have hon := entOK_on he
  have hall : ∀ m ∈ e.walk, g0.On m := fun m hm => (mem_gnodes g0 m).1 (he.sub hm)
  -- run the buffer part, then the label part
  have key : ∃ w, Abs.Chain (gview g0) s.prev w ∧ w.length ≤ e.walk.length ∧ (∀ m ∈ w, g0.On m) ∧
      ∃ t0, g.traceBuf 2 (enc e.d1 e.d2) ⟨e.n, .UNKNOWN, [], [], false⟩ = t0 ∧ TraceInv t0 ∧
        w.head? = some t0.cur ∧ t0.warn = false ∧ t0.path ≠ [] ∧ t0.root ++ w = e.walk ∧
        (t0.path ++ [t0.cur]).head? = some e.n := by
    have i0 : TraceInv ⟨e.n, .UNKNOWN, [], [], false⟩ := ⟨rfl, trivial, trivial, Or.inl ⟨rfl, rfl⟩⟩
    have hsrc : g.isSrc e.n = false := by rw [sim_src h.same]; exact hns
    have hd0 : ∀ (l : List MIdx) (x y : MIdx), l ≠ [] → l.head? = some y → (l ++ [x]).head? = some y := by
      intro l x y hl hh; cases l <;> simp_all
    have hs := he.shape
    cases hs with
    | root n hr => simp [gview] at hr; rw [hr.2] at hns; simp at hns
    | one n d hd hn hed hsr =>
      obtain ⟨a1, a2, a3, a4, a5, a6⟩ := traceInv_step ⟨n, .UNKNOWN, [], [], false⟩ d i0 hd
      refine ⟨[back n d], .root _ hsr, by simp, fun m hm => hall m (by simp at hm ⊢; exact Or.inr hm), _, rfl, ?_⟩
      have h2 : g.isSrc (back n d) = true := by rw [sim_src h.same]; simp [gview] at hsr; exact hsr.2
      have e1 : g.traceBuf 2 (enc d .UNKNOWN) ⟨n, .UNKNOWN, [], [], false⟩ =
          ({ (⟨n, .UNKNOWN, [], [], false⟩ : Trace) with root := [] ++ [n] }.back d) := by
        rw [Grid.traceBuf]
        simp only [hsrc, enc_last, hd, if_false, Bool.false_eq_true]
        rw [Grid.traceBuf]
        have : g.isSrc (Trace.back ⟨n, .UNKNOWN, [], [] ++ [n], false⟩ d).cur = true := by
          rw [show (Trace.back ⟨n, .UNKNOWN, [], [] ++ [n], false⟩ d).cur = back n d from a2]; exact h2
        simp only [this, if_true]
      show TraceInv (g.traceBuf 2 (enc d .UNKNOWN) ⟨n, .UNKNOWN, [], [], false⟩) ∧ _
      rw [e1]
      exact ⟨a1, by rw [a2]; rfl, a5, a4, by rw [a3]; rfl, hd0 _ _ _ a4 (by rw [a6]; rfl)⟩
    | two n d1 d2 t hd1 hd2 hn hn1 he1 he2 hc =>
      obtain ⟨a1, a2, a3, a4, a5, a6⟩ := traceInv_step ⟨n, .UNKNOWN, [], [], false⟩ d1 i0 hd1
      have h2 : g.isSrc (back n d1) = false := by
        rw [sim_src h.same]
        simp [gview] at hn1
        exact hn1 (hall _ (by simp))
      obtain ⟨b1, b2, b3, b4, b5, b6⟩ := traceInv_step _ d2 a1 hd2
      refine ⟨back (back n d1) d2 :: t, hc, by simp,
        fun m hm => hall m (by simp at hm ⊢; exact Or.inr (Or.inr hm)), _, rfl, ?_⟩
      have e1 : g.traceBuf 2 (enc d1 d2) ⟨n, .UNKNOWN, [], [], false⟩ =
          ({ (({ (⟨n, .UNKNOWN, [], [], false⟩ : Trace) with root := [] ++ [n] }.back d1)) with
            root := (({ (⟨n, .UNKNOWN, [], [], false⟩ : Trace) with root := [] ++ [n] }.back d1)).root ++
              [(({ (⟨n, .UNKNOWN, [], [], false⟩ : Trace) with root := [] ++ [n] }.back d1)).cur] }.back d2) := by
        rw [Grid.traceBuf]
        simp only [hsrc, enc_last, hd1, if_false, Bool.false_eq_true, enc_shr]
        rw [Grid.traceBuf]
        have : g.isSrc (Trace.back ⟨n, .UNKNOWN, [], [] ++ [n], false⟩ d1).cur = false := by
          rw [show (Trace.back ⟨n, .UNKNOWN, [], [] ++ [n], false⟩ d1).cur = back n d1 from a2]; exact h2
        simp only [this, if_false, Bool.false_eq_true, enc_last, hd2]
        rw [Grid.traceBuf]
      show TraceInv (g.traceBuf 2 (enc d1 d2) ⟨n, .UNKNOWN, [], [], false⟩) ∧ _
      rw [e1]
      refine ⟨b1, by rw [b2, a2]; rfl, by rw [b5, a5], b4, by rw [b3, a3, a2]; rfl, hd0 _ _ _ b4 ?_⟩
      rw [b6]; exact hd0 _ _ _ a4 (by rw [a6]; rfl)
  obtain ⟨w, hc, hl, hw, t0, e0, i0, hh, hwn, hpn, hr, hhd⟩ := key
  obtain ⟨t', b1, b2, b3, b4, b5, b6⟩ := traceGrid_chain h.same h.prev w hc fuel t0 (by omega) hw hh i0
  have hp' := b5 hpn
  refine ⟨{ t' with path := t'.path ++ [t'.cur] }, ?_, by simp [b3, hwn], by simp, ?_, ?_, ?_, b2.straight, b2.turns⟩
  · simp only [Grid.traceBackPath]
    have : (erase e).buf = enc e.d1 e.d2 := rfl
    have h2 : (erase e).n = e.n := rfl
    rw [this, h2, e0, b1]
    simp [hp']
  · show (t'.path ++ [t'.cur]).head? = _
    rw [b6, hhd]
  · show cells (t'.path ++ [t'.cur]) = _
    rw [hr] at b4
    simp only [cells, List.getLast?_append, List.getLast?_singleton]
    simp only [Option.some_or, Option.toList]
    rw [← b2.root, b4]
  · show t'.root = _
    rw [hr] at b4
    rw [← b4]; simp

end TR
