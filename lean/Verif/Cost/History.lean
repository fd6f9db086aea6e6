import Verif.Cost.Cuts
import Verif.Cost.HistSpec
import Verif.Maze.CounterProps
/-! C77: the design rule counters of the routing grid over any history of routing and ripping up; C78: they stay on the grid. -/
namespace TR

def SameGrid (g g' : Grid) : Prop := g'.xs = g.xs ∧ g'.ys = g.ys ∧ g'.zs = g.zs

theorem sameGrid_step (g : Grid) (op : GOp) (hl : op.Legal g) : SameGrid g (g.step op) := by
  rcases step_normal g op hl with h | ⟨n, a, v, _, _, h⟩ <;> rw [h] <;> exact ⟨rfl, rfl, rfl⟩

theorem sameGrid_run (ops : List GOp) : ∀ (g : Grid), (∀ op ∈ ops, op.Legal g) → SameGrid g (g.run ops) := by
  induction ops with
  | nil => intro g _; exact ⟨rfl, rfl, rfl⟩
  | cons op ops ih =>
    intro g hl
    have h1 := sameGrid_step g op (hl op (by simp))
    have h2 := ih (g.step op) (fun o ho => legal_step g op o (hl op (by simp)) (hl o (by simp [ho])))
    exact ⟨h2.1.trans h1.1, h2.2.1.trans h1.2.1, h2.2.2.trans h1.2.2⟩

theorem sameGrid_on {g g' : Grid} (h : SameGrid g g') (m : MIdx) : g'.On m ↔ g.On m := by
  unfold Grid.On; rw [h.1, h.2.1, h.2.2]

theorem sameGrid_targets {g g' : Grid} (h : SameGrid g g') (T : CTech) (sv : MIdx → Option MzVia) (f : CFig) :
    pathTargets T g' sv f = pathTargets T g sv f := by
  obtain ⟨h1, h2, h3⟩ := h
  rcases g with ⟨⟩
  rcases g' with ⟨⟩
  simp only at h1 h2 h3
  subst h1; subst h2; subst h3
  rfl

/-! ### one shape -/

theorem target_costOp (ty : CostMod) (t : CTgt) (hty : ty = .addDRC ∨ ty = .subDRC) : (costOp ty t).target = some (t.1, ctrAttr t.2) := by
  obtain ⟨n, b⟩ := t
  rcases hty with rfl | rfl <;> cases b <;> rfl

theorem legal_costOp {g : Grid} {t : CTgt} (h : g.On t.1) (ty : CostMod) (hty : ty = .addDRC ∨ ty = .subDRC) : (costOp ty t).Legal g := by
  right
  intro n a e
  rw [target_costOp ty t hty] at e
  simp only [Option.some.injEq, Prod.mk.injEq] at e
  rw [← e.1]
  exact (on_iff g _).1 h

def sgn : CostMod → Int
  | .addDRC => 1
  | _ => -1

theorem ctrAttr_inj {a b : Bool} : ctrAttr a = ctrAttr b ↔ a = b := by cases a <;> cases b <;> decide

theorem netChange_costs (ty : CostMod) (hty : ty = .addDRC ∨ ty = .subDRC) (t : CTgt) (l : List CTgt) :
    netChange t.1 (ctrAttr t.2) (l.map (costOp ty)) = sgn ty * l.count t := by
  induction l with
  | nil => simp [netChange]
  | cons u l ih =>
    rw [List.map_cons, netChange, ih, List.count_cons]
    have : ((costOp ty u).effect t.1 (ctrAttr t.2)).delta = sgn ty * (if u = t then 1 else 0) := by
      unfold GOp.effect
      rw [target_costOp ty u hty]
      obtain ⟨n, b⟩ := t
      obtain ⟨m, c⟩ := u
      simp only [Option.some.injEq, Prod.mk.injEq, ctrAttr_inj]
      split
      · rcases hty with rfl | rfl <;> cases c <;> simp [costOp, CounterEffect.delta, sgn]
      · simp [CounterEffect.delta]
    rw [this]
    have e : (if (u == t) = true then 1 else 0 : Nat) = if u = t then 1 else 0 := by simp
    rw [e]
    split
    · rw [Int.natCast_add, Int.mul_add]; simp; omega
    · simp

theorem onlyCounts_costs (ty : CostMod) (hty : ty = .addDRC ∨ ty = .subDRC) (m : MIdx) (a : Attr) (l : List CTgt) :
    OnlyCounts m a (l.map (costOp ty)) := by
  intro op hop
  rw [List.mem_map] at hop
  obtain ⟨⟨n, b⟩, _, rfl⟩ := hop
  unfold GOp.effect
  split
  · rcases hty with rfl | rfl <;> cases b <;> simp [costOp]
  · simp

theorem modPathCost_attr (T : CTech) (sv : MIdx → Option MzVia) (g : Grid) (f : CFig) (ty : CostMod) (hty : ty = .addDRC ∨ ty = .subDRC)
    (hon : ∀ t ∈ pathTargets T g sv f, g.On t.1) (t : CTgt) (ht : g.On t.1)
    (h0 : 0 ≤ (g.attr t.1 (ctrAttr t.2) : Int) + sgn ty * (pathTargets T g sv f).count t)
    (h1 : (g.attr t.1 (ctrAttr t.2) : Int) + sgn ty * (pathTargets T g sv f).count t ≤ 255) (hle : g.attr t.1 (ctrAttr t.2) ≤ 255) :
    ((modPathCost T sv ty f g).attr t.1 (ctrAttr t.2) : Int) = g.attr t.1 (ctrAttr t.2) + sgn ty * (pathTargets T g sv f).count t := by
  unfold modPathCost
  have hl : ∀ op ∈ (pathTargets T g sv f).map (costOp ty), op.Legal g := by
    intro op hop
    rw [List.mem_map] at hop
    obtain ⟨u, hu, rfl⟩ := hop
    exact legal_costOp (hon u hu) ty hty
  rw [c10_counter_exact_partial _ g hl t.1 (ctrAttr t.2) ht (onlyCounts_costs ty hty _ _ _), netChange_costs ty hty]
  intro k _
  rw [← List.map_take, netChange_costs ty hty]
  have hc : ((pathTargets T g sv f).take k).count t ≤ (pathTargets T g sv f).count t :=
    (List.take_sublist _ _).count_le _
  rcases hty with rfl | rfl <;> simp only [sgn] at * <;> omega

theorem attr_le (g : Grid) (m : MIdx) (b : Bool) : g.attr m (ctrAttr b) ≤ 255 := by
  unfold Grid.attr
  cases b
  · show _ % 2 ^ 8 ≤ 255; omega
  · show _ % 2 ^ 8 ≤ 255; omega

theorem sameGrid_mod {T : CTech} {sv : MIdx → Option MzVia} {g : Grid} {f : CFig} {ty : CostMod} (hty : ty = .addDRC ∨ ty = .subDRC)
    (hon : ∀ t ∈ pathTargets T g sv f, g.On t.1) : SameGrid g (modPathCost T sv ty f g) := by
  apply sameGrid_run
  intro op hop
  rw [List.mem_map] at hop
  obtain ⟨u, hu, rfl⟩ := hop
  exact legal_costOp (hon u hu) ty hty

theorem chargeOf_perm {T : CTech} {g : Grid} {sv : MIdx → Option MzVia} {t : CTgt} {a b : List CFig} (h : a.Perm b) :
    chargeOf T g sv t a = chargeOf T g sv t b := (h.map _).sum_nat

theorem chargeOf_cons (T : CTech) (g : Grid) (sv : MIdx → Option MzVia) (t : CTgt) (f : CFig) (fs : List CFig) :
    chargeOf T g sv t (f :: fs) = (pathTargets T g sv f).count t + chargeOf T g sv t fs := by
  unfold chargeOf; rw [List.map_cons, List.sum_cons]

theorem routed_inv {T : CTech} {sv : MIdx → Option MzVia} {g0 : Grid} {t : CTgt} (ht : g0.On t.1) {fs : List CFig} {g : Grid}
    (h : RoutedFrom T sv g0 t fs g) : SameGrid g0 g ∧ (∀ f ∈ fs, ChargesGrid T g0 sv f) ∧
      g.attr t.1 (ctrAttr t.2) = g0.attr t.1 (ctrAttr t.2) + chargeOf T g0 sv t fs := by
  induction h with
  | start => exact ⟨⟨rfl, rfl, rfl⟩, by simp, by simp [chargeOf]⟩
  | @add fs g f hr hc hle ih =>
    obtain ⟨h1, h2, h3⟩ := ih
    have hte := sameGrid_targets h1 T sv f
    have hon : ∀ t ∈ pathTargets T g sv f, g.On t.1 := by
      rw [hte]; intro u hu; exact (sameGrid_on h1 _).2 (hc u hu)
    have hs := sameGrid_mod (ty := .addDRC) (Or.inl rfl) hon
    refine ⟨⟨hs.1.trans h1.1, hs.2.1.trans h1.2.1, hs.2.2.trans h1.2.2⟩, ?_, ?_⟩
    · intro f' hf'
      rcases List.mem_cons.1 hf' with rfl | hf'
      · exact hc
      · exact h2 f' hf'
    · rw [chargeOf_cons] at *
      have := modPathCost_attr T sv g f .addDRC (Or.inl rfl) hon t ((sameGrid_on h1 _).2 ht)
      rw [hte] at this
      simp only [sgn] at this
      have e := this (by omega) (by omega) (attr_le _ _ _)
      unfold addPathCost
      omega
  | @remove fs fs' g f hr hp ih =>
    obtain ⟨h1, h2, h3⟩ := ih
    have hte := sameGrid_targets h1 T sv f
    have hon : ∀ t ∈ pathTargets T g sv f, g.On t.1 := by
      rw [hte]; intro u hu; exact (sameGrid_on h1 _).2 (h2 f (hp.mem_iff.2 (by simp)) u hu)
    have hs := sameGrid_mod (ty := .subDRC) (Or.inr rfl) hon
    refine ⟨⟨hs.1.trans h1.1, hs.2.1.trans h1.2.1, hs.2.2.trans h1.2.2⟩, fun f' hf' => h2 f' (hp.mem_iff.2 (by simp [hf'])), ?_⟩
    have hc := chargeOf_perm (T := T) (g := g0) (sv := sv) (t := t) hp
    rw [chargeOf_cons] at hc
    have hle := attr_le g t.1 t.2
    have := modPathCost_attr T sv g f .subDRC (Or.inr rfl) hon t ((sameGrid_on h1 _).2 ht)
    rw [hte] at this
    simp only [sgn] at this
    have e := this (by omega) (by omega) hle
    unfold subPathCost
    omega

/-- C77: after any history of routing and ripping up, every counter equals its first value plus the charges of the shapes now present, whatever was
routed and ripped up before and in whatever order. -/
theorem c77_counter (T : CTech) (sv : MIdx → Option MzVia) (g0 : Grid) (t : CTgt) (ht : g0.On t.1) (fs : List CFig) (g : Grid)
    (h : RoutedFrom T sv g0 t fs g) : g.attr t.1 (ctrAttr t.2) = g0.attr t.1 (ctrAttr t.2) + chargeOf T g0 sv t fs :=
  (routed_inv ht h).2.2

/-- C77: two histories that leave the same shapes leave the same counters -/
theorem c77_order (T : CTech) (sv : MIdx → Option MzVia) (g0 : Grid) (t : CTgt) (ht : g0.On t.1) (fs fs' : List CFig) (g g' : Grid)
    (h : RoutedFrom T sv g0 t fs g) (h' : RoutedFrom T sv g0 t fs' g') (hp : fs.Perm fs') :
    g.attr t.1 (ctrAttr t.2) = g'.attr t.1 (ctrAttr t.2) := by
  rw [c77_counter T sv g0 t ht fs g h, c77_counter T sv g0 t ht fs' g' h', chargeOf_perm hp]

theorem charged_present {T : CTech} {sv : MIdx → Option MzVia} {g0 : Grid} {t : CTgt} (ht : g0.On t.1) {fs : List CFig} {g : Grid}
    (h : RoutedFrom T sv g0 t fs g) (h0 : g.attr t.1 (ctrAttr t.2) = 0) {f : CFig} (hf : f ∈ fs) : t ∉ pathTargets T g0 sv f := by
  have e := c77_counter T sv g0 t ht fs g h
  have hz : chargeOf T g0 sv t fs = 0 := by omega
  intro hm
  have hp := List.count_pos_iff.2 hm
  obtain ⟨l, hl⟩ := List.mem_iff_append.1 hf
  obtain ⟨l2, hl⟩ := hl
  have hperm : fs.Perm (f :: (l ++ l2)) := by rw [hl]; exact List.perm_middle
  have := chargeOf_perm (T := T) (g := g0) (sv := sv) (t := t) hperm
  rw [chargeOf_cons] at this
  omega

theorem metal_planar {T : CTech} {g : Grid} {sv : MIdx → Option MzVia} {f : CFig} {box : Box} {z : Int} (h : f.Metal box z) {t : CTgt}
    (ht : t ∈ minSpcPlanar T g box z false) : t ∈ pathTargets T g sv f := by
  cases h <;> simp only [pathTargets, viaMetalCost, List.mem_append] <;> simp [ht]

theorem metal_via {T : CTech} {g : Grid} {sv : MIdx → Option MzVia} {f : CFig} {box : Box} {z : Int} (h : f.Metal box z) (upper : Bool) :
    ∃ grows, ∀ t ∈ minSpcVia T g sv box z upper grows false, t ∈ pathTargets T g sv f := by
  cases h
  · refine ⟨true, ?_⟩; intro t ht; cases upper <;> simp only [pathTargets, List.mem_append] <;> simp [ht]
  · refine ⟨true, ?_⟩; intro t ht; cases upper <;> simp only [pathTargets, List.mem_append] <;> simp [ht]
  · refine ⟨false, ?_⟩; intro t ht; cases upper <;> simp only [pathTargets, viaMetalCost, List.mem_append] <;> simp [ht]
  · refine ⟨false, ?_⟩; intro t ht; cases upper <;> simp only [pathTargets, viaMetalCost, List.mem_append] <;> simp [ht]

theorem cut_targets {T : CTech} {g : Grid} {sv : MIdx → Option MzVia} {f : CFig} {box : Box} {z : Int} (h : f.Cut box z) :
    (∀ t ∈ cutSpcCost T g box z false, t ∈ pathTargets T g sv f) ∧ ∀ upper, ∀ t ∈ interCutCost T g box z upper, t ∈ pathTargets T g sv f := by
  cases h with
  | cut v o z1 z2 c hc =>
    refine ⟨?_, ?_⟩
    · intro t ht
      simp only [pathTargets, List.mem_append, List.mem_flatMap]
      exact Or.inr ⟨c, hc, Or.inl (Or.inl ht)⟩
    · intro upper t ht
      simp only [pathTargets, List.mem_append, List.mem_flatMap]
      refine Or.inr ⟨c, hc, ?_⟩
      cases upper
      · exact Or.inr ht
      · exact Or.inl (Or.inr ht)

theorem on_node {g : Grid} {i j : Nat} {p : Point} (h : NodeAt g i j p) {z : Int} (hz0 : 0 ≤ z) (hz : z < g.zs.length) : g.On ⟨i, j, z⟩ := by
  obtain ⟨h1, h2⟩ := h
  have a := (List.getElem?_eq_some_iff.1 h1).1
  have b := (List.getElem?_eq_some_iff.1 h2).1
  unfold Grid.On
  simp only
  omega

/-- C77: if, at any point of the history, the counter for wires of a node is zero, a wire through that node keeps its spacing to all metal
present on that layer that is at least as wide as the wire. -/
theorem c77_free_wire (T : CTech) (sv : MIdx → Option MzVia) (g0 : Grid) (hs : g0.Sorted) (i j : Nat) (p : Point) (hp : NodeAt g0 i j p) (z : Int)
    (hz0 : 0 ≤ z) (hz : z < g0.zs.length) (fs : List CFig) (g : Grid) (h : RoutedFrom T sv g0 (⟨i, j, z⟩, false) fs g)
    (hfree : g.attr ⟨i, j, z⟩ .drcP = 0) (f : CFig) (hf : f ∈ fs) (box : Box) (hmet : f.Metal box z) (hb : box.Proper)
    (hw : 2 ≤ T.width (g0.lay z)) (hwide : 2 * (T.width (g0.lay z) / 2) ≤ box.width) (hm : SpcMono T (g0.lay z)) (d : Int) (hd0 : 0 ≤ d)
    (hd : LayerSpacing T (g0.lay z) False box.width (T.width (g0.lay z)) box.length d)
    (run e : Int) (he0 : 0 ≤ e) (hrun : run ≤ box.length) (he : LayerSpacing T (g0.lay z) False box.width (T.width (g0.lay z)) run e) :
    ¬ Closer (wireSq p (T.width (g0.lay z) / 2)) box e := by
  have hn := charged_present (on_node hp hz0 hz) h hfree hf
  exact c72_clear T g0 hs box hb z d hd0 hd hw hwide hm i j p hp (fun hin => hn (metal_planar hmet hin)) run e he0 hrun he

/-- C77: if the counter for vias of a node is zero, the default via (or the special via of the node) may stand there: its metal on this layer
keeps its spacing to all metal present, and nothing present lies in front of its ends. -/
theorem c77_free_via (T : CTech) (sv : MIdx → Option MzVia) (g0 : Grid) (hs : g0.Sorted) (i j : Nat) (p : Point) (hp : NodeAt g0 i j p) (z : Int)
    (upper : Bool) (hz0 : 0 ≤ viaZ z upper) (hz : viaZ z upper < g0.zs.length) (fs : List CFig) (g : Grid)
    (h : RoutedFrom T sv g0 (⟨i, j, viaZ z upper⟩, true) fs g) (hfree : g.attr ⟨i, j, viaZ z upper⟩ .drcV = 0) (f : CFig) (hf : f ∈ fs)
    (box : Box) (hmet : f.Metal box z) (hb : box.Proper) (v : MzVia) (hv : T.ViaOk (g0.lay z) upper v) (heol : EolRulesOk (T.eol (g0.lay z)))
    (hm : SpcMono T (g0.lay z)) (sb : Box) (hsb : sb = match sv ⟨i, j, viaZ z upper⟩ with | some s => s.metal upper | none => v.metal upper)
    (hfit : FitsDefault (T.eol (g0.lay z)) sb (v.metal upper))
    (hlook : ∀ run, ∃ q, 0 ≤ q ∧ LayerSpacing T (g0.lay z) False box.width (v.metal upper).width run q ∧ ∀ r ∈ T.eol (g0.lay z), r.within ≤ q) :
    (∀ e, LayerSpacing T (g0.lay z) False box.width (v.metal upper).width (runLen box (sb.at p)) e → 0 ≤ e → ¬ Closer (sb.at p) box e) ∧
    ∀ r ∈ T.eol (g0.lay z), ∀ s, ¬ EolClose r (sb.at p) box s := by
  have hn := charged_present (on_node hp hz0 hz) h hfree hf
  obtain ⟨grows, hg⟩ := metal_via (T := T) (g := g0) (sv := sv) hmet upper
  exact c73_clear T g0 hs sv box hb z upper grows v hv heol hm i j p hp sb hsb hfit hlook (fun hin => hn (hg _ hin))

/-- C77: if the counter for vias of a node is zero, no cut of the default via at that node is forbidden next to any cut present. -/
theorem c77_free_cut (T : CTech) (sv : MIdx → Option MzVia) (g0 : Grid) (hs : g0.Sorted) (i j : Nat) (p : Point) (hp : NodeAt g0 i j p) (z : Int)
    (hz0 : 0 ≤ z) (hz : z < g0.zs.length) (fs : List CFig) (g : Grid) (h : RoutedFrom T sv g0 (⟨i, j, z⟩, true) fs g)
    (hfree : g.attr ⟨i, j, z⟩ .drcV = 0) (f : CFig) (hf : f ∈ fs) (box : Box) (hcut : f.Cut box z) (hb : box.Proper) (v : MzVia)
    (hv : T.via (g0.lay z + 1) = some v) (hcuts : v.CutsOk) (hr : CutRulesOk (T.cut (g0.lay z + 1))) :
    ∀ c ∈ v.cuts, ∀ r ∈ T.cut (g0.lay z + 1), ¬ CutForbids r false box (c.at p) := by
  classical
  have hn := charged_present (on_node hp hz0 hz) h hfree hf
  have hno := fun hin => hn ((cut_targets (T := T) (g := g0) (sv := sv) hcut).1 _ hin)
  have hc := c75_cut T g0 hs box hb z false v hv hcuts hr i j p hp (fun c => decide (∃ r, r ∈ T.cut (g0.lay z + 1) ∧ CutForbids r false box (c.at p)))
    (fun c => by simp)
  rw [List.count_eq_zero.2 hno] at hc
  intro c hc1 r hr1 hf1
  have := List.countP_eq_zero.1 hc.symm c hc1
  exact this (by simpa using ⟨r, hr1, hf1⟩)

/-- C77: … nor next to a cut of the layer above or below, by the rule between the two layers. -/
theorem c77_free_inter (T : CTech) (sv : MIdx → Option MzVia) (g0 : Grid) (hs : g0.Sorted) (i j : Nat) (p : Point) (hp : NodeAt g0 i j p) (z zv : Int)
    (upper : Bool) (hzv : zv = if upper then z + 1 else z - 1) (hz0 : 0 ≤ zv) (hz : zv < g0.zs.length) (fs : List CFig) (g : Grid)
    (h : RoutedFrom T sv g0 (⟨i, j, zv⟩, true) fs g) (hfree : g.attr ⟨i, j, zv⟩ .drcV = 0) (f : CFig) (hf : f ∈ fs) (box : Box)
    (hcut : f.Cut box z) (hb : box.Proper) (v : MzVia) (r : CutSpRule) (hv : T.otherVia (g0.lay z + 1) upper = some v)
    (hrule : T.interRule (g0.lay z + 1) (otherCut (g0.lay z + 1) upper) = some r) (hcuts : v.CutsOk) (hr : 0 ≤ r.spacing) :
    ∀ c ∈ v.cuts, ¬ CutNear r.c2c box (c.at p) r.spacing := by
  have hn := charged_present (on_node hp hz0 hz) h hfree hf
  have hno := fun hin => hn ((cut_targets (T := T) (g := g0) (sv := sv) hcut).2 upper _ hin)
  intro c hc hnear
  apply hno
  rw [hzv]
  exact (c75_inter T g0 hs box hb z upper v r hv hrule hcuts hr i j p hp).2.2 ⟨c, hc, hnear⟩

/-! ## C78 -/

theorem mem_viaThrough {T : CTech} {bi ei : MIdx} {t : CTgt} (ht : t ∈ viaThrough T bi ei) :
    ∃ x y down, ((bi.y = ei.y ∧ y = bi.y ∧ bi.x ≤ x ∧ x < ei.x) ∨ (bi.y ≠ ei.y ∧ x = bi.x ∧ bi.y ≤ y ∧ y < ei.y)) ∧
      T.through bi.z down (decide (bi.y = ei.y)) = true ∧ t = (⟨x, y, if down then bi.z - 1 else bi.z⟩, true) := by
  unfold viaThrough at ht
  simp only [List.mem_flatMap, List.mem_append] at ht
  obtain ⟨n, hn, ht⟩ := ht
  have hn' : (bi.y = ei.y ∧ n.2 = bi.y ∧ bi.x ≤ n.1 ∧ n.1 < ei.x) ∨ (bi.y ≠ ei.y ∧ n.1 = bi.x ∧ bi.y ≤ n.2 ∧ n.2 < ei.y) := by
    split at hn
    · rename_i h
      rw [List.mem_map] at hn
      obtain ⟨x, hx, rfl⟩ := hn
      rw [mem_rangeIncl] at hx
      exact Or.inl ⟨h, rfl, by omega, by omega⟩
    · rename_i h
      rw [List.mem_map] at hn
      obtain ⟨x, hx, rfl⟩ := hn
      rw [mem_rangeIncl] at hx
      exact Or.inr ⟨h, rfl, by omega, by omega⟩
  rcases ht with ht | ht
  · split at ht
    · rename_i h
      rw [List.mem_singleton] at ht
      exact ⟨n.1, n.2, true, hn', h, by simpa using ht⟩
    · cases ht
  · split at ht
    · rename_i h
      rw [List.mem_singleton] at ht
      exact ⟨n.1, n.2, false, hn', h, by simpa using ht⟩
    · cases ht

/-- C78: updating the costs of a shape that lies on the grid touches only counters of the grid. -/
theorem c78_in_grid (T : CTech) (g : Grid) (hs : g.Sorted) (sv : MIdx → Option MzVia) (hfit : ViasFit T g) (f : CFig) (hf : f.OnGrid g) :
    ChargesGrid T g sv f := by
  have hnode : ∀ {i j : Nat} {p : Point} {z : Int}, NodeAt g i j p → 0 ≤ z → z < g.zs.length → g.On ⟨i, j, z⟩ := fun h a b => on_node h a b
  have hviaZ : ∀ {z : Int} {upper : Bool} {v : MzVia}, 0 ≤ z → z < g.zs.length → T.viaOf (g.lay z) upper = some v →
      0 ≤ viaZ z upper ∧ viaZ z upper < g.zs.length := by
    intro z upper v h1 h2 hv
    unfold viaZ
    cases upper
    · have := (hfit z h1 h2).1 v hv; simp; omega
    · simp; omega
  have hpl : ∀ {box : Box} {z : Int} {t : CTgt}, 0 ≤ z → z < g.zs.length → t ∈ minSpcPlanar T g box z false → g.On t.1 := by
    intro box z t h1 h2 ht
    obtain ⟨i, j, p, hn, rfl⟩ := c72_planar_only T g hs box z false t ht
    exact hnode hn h1 h2
  have hvi : ∀ {box : Box} {z : Int} {upper gr : Bool} {t : CTgt}, 0 ≤ z → z < g.zs.length → t ∈ minSpcVia T g sv box z upper gr false → g.On t.1 := by
    intro box z upper gr t h1 h2 ht
    obtain ⟨⟨v, hv⟩, i, j, p, hn, rfl⟩ := c73_via_only T g hs sv box z upper gr false t ht
    have := hviaZ h1 h2 hv
    exact hnode hn this.1 this.2
  have heo : ∀ {box : Box} {z : Int} {t : CTgt}, 0 ≤ z → z < g.zs.length → t ∈ eolSpc T g sv box z false → g.On t.1 := by
    intro box z t h1 h2 ht
    obtain ⟨i, j, p, hn, rfl | ⟨upper, v, hv, rfl⟩⟩ := c74_only T g hs sv box z false t ht
    · exact hnode hn h1 h2
    · have := hviaZ h1 h2 hv
      exact hnode hn this.1 this.2
  have hme : ∀ {box : Box} {z : Int} {t : CTgt}, 0 ≤ z → z < g.zs.length → t ∈ viaMetalCost T g sv box z → g.On t.1 := by
    intro box z t h1 h2 ht
    unfold viaMetalCost at ht
    simp only [List.mem_append] at ht
    rcases ht with ((ht | ht) | ht) | ht
    · exact hpl h1 h2 ht
    · exact hvi h1 h2 ht
    · exact hvi h1 h2 ht
    · exact heo h1 h2 ht
  intro t ht
  cases f with
  | wire box bi ei =>
    obtain ⟨hb, he, _⟩ := hf
    have hb' := hb
    have he' := he
    unfold Grid.On at hb' he'
    have z1 : 0 ≤ bi.z := hb'.2.2.2.2.1
    have z2 : bi.z < g.zs.length := hb'.2.2.2.2.2
    simp only [pathTargets, List.mem_append] at ht
    rcases ht with (((ht | ht) | ht) | ht) | ht
    · exact hpl z1 z2 ht
    · exact hvi z1 z2 ht
    · exact hvi z1 z2 ht
    · obtain ⟨x, y, down, hxy, hth, rfl⟩ := mem_viaThrough ht
      cases down
      · unfold Grid.On; simp only [Bool.false_eq_true, if_false]; omega
      · have := (hfit bi.z z1 z2).2.2.2 _ hth
        unfold Grid.On; simp only [if_true]; omega
    · split at ht
      · exact heo z1 z2 ht
      · cases ht
  | patch box z =>
    simp only [pathTargets, List.mem_append] at ht
    rcases ht with ((ht | ht) | ht) | ht
    · exact hpl hf.1 hf.2 ht
    · exact hvi hf.1 hf.2 ht
    · exact hvi hf.1 hf.2 ht
    · exact heo hf.1 hf.2 ht
  | via v o z1 z2 =>
    obtain ⟨h1, h2, h3, h4⟩ := hf
    simp only [pathTargets, List.mem_append, List.mem_flatMap] at ht
    rcases ht with (ht | ht) | ⟨c, _, (ht | ht) | ht⟩
    · exact hme h1 h2 ht
    · exact hme h3 h4 ht
    · obtain ⟨_, i, j, p, hn, rfl⟩ := c75_cut_only T g hs _ z1 false t ht
      exact hnode hn h1 h2
    · obtain ⟨⟨w, hw⟩, i, j, p, hn, rfl⟩ := c75_inter_only T g hs _ z1 true t ht
      have := (hfit z1 h1 h2).2.2.1 w hw
      exact hnode hn (by simp; omega) (by simpa using this)
    · obtain ⟨⟨w, hw⟩, i, j, p, hn, rfl⟩ := c75_inter_only T g hs _ z1 false t ht
      have := (hfit z1 h1 h2).2.1 w hw
      exact hnode hn (by simp; omega) (by simp; omega)

/-- C78: … and of these only the two design rule counters: edges, blockages, guides, grid costs, shape and marker costs stay as they are. -/
theorem c78_only_drc (T : CTech) (g : Grid) (hs : g.Sorted) (sv : MIdx → Option MzVia) (hfit : ViasFit T g) (f : CFig) (hf : f.OnGrid g)
    (m : MIdx) (hm : g.On m) (a : Attr) (ha : a ≠ .drcP ∧ a ≠ .drcV) :
    (addPathCost T sv f g).attr m a = g.attr m a ∧ (subPathCost T sv f g).attr m a = g.attr m a := by
  have hon := c78_in_grid T g hs sv hfit f hf
  have gen : ∀ ty, ty = .addDRC ∨ ty = .subDRC → (modPathCost T sv ty f g).attr m a = g.attr m a := by
    intro ty hty
    unfold modPathCost
    apply c08_history _ g _ m a hm
    · intro op hop
      rw [List.mem_map] at hop
      obtain ⟨u, _, rfl⟩ := hop
      rw [target_costOp ty u hty]
      simp only [ne_eq, Option.some.injEq, Prod.mk.injEq, not_and]
      intro _ e
      unfold ctrAttr at e
      split at e
      · exact ha.2 e.symm
      · exact ha.1 e.symm
    · intro op hop
      rw [List.mem_map] at hop
      obtain ⟨u, hu, rfl⟩ := hop
      exact legal_costOp (hon u hu) ty hty
  exact ⟨gen _ (Or.inl rfl), gen _ (Or.inr rfl)⟩

/-- C78: without that condition it may: with a via below the lowest layer the charged node has a negative index -/
theorem c78_outside : ∃ (T : CTech) (g : Grid) (f : CFig), g.Sorted ∧ f.OnGrid g ∧ ∃ t ∈ pathTargets T g (fun _ => none) f, ¬ g.On t.1 := by
  refine ⟨{ exCTech with via := fun _ => some exVia }, exCGrid, .patch ⟨⟨80, 80⟩, ⟨120, 120⟩⟩ 0, by unfold Grid.Sorted StrictInc; decide,
    ⟨by decide, by decide⟩, (⟨1, 1, -1⟩, true), ?_, by decide⟩
  simp only [pathTargets, List.mem_append]
  exact Or.inl (Or.inr (by decide))

/-- C78: a wire charges, for vias that must not be passed through, the nodes from its begin up to, not including, its end -/
theorem c78_through (T : CTech) (bi ei : MIdx) (x y z : Int) :
    (⟨x, y, z⟩, true) ∈ viaThrough T bi ei ↔
      ((bi.y = ei.y ∧ y = bi.y ∧ bi.x ≤ x ∧ x < ei.x) ∨ (bi.y ≠ ei.y ∧ x = bi.x ∧ bi.y ≤ y ∧ y < ei.y)) ∧
      ((z = bi.z - 1 ∧ T.through bi.z true (decide (bi.y = ei.y)) = true) ∨ (z = bi.z ∧ T.through bi.z false (decide (bi.y = ei.y)) = true)) := by
  constructor
  · intro h
    obtain ⟨x', y', down, hxy, hth, e⟩ := mem_viaThrough h
    simp only [Prod.mk.injEq, MIdx.mk.injEq, and_true] at e
    obtain ⟨rfl, rfl, rfl⟩ := e
    refine ⟨hxy, ?_⟩
    cases down
    · right; exact ⟨by simp, hth⟩
    · left; exact ⟨by simp, hth⟩
  · rintro ⟨hxy, hz⟩
    unfold viaThrough
    simp only [List.mem_flatMap, List.mem_append]
    refine ⟨(x, y), ?_, ?_⟩
    · rcases hxy with ⟨h1, rfl, h2, h3⟩ | ⟨h1, rfl, h2, h3⟩
      · rw [if_pos h1, List.mem_map]
        exact ⟨x, (mem_rangeIncl _ _ _).2 (by omega), rfl⟩
      · rw [if_neg h1, List.mem_map]
        exact ⟨y, (mem_rangeIncl _ _ _).2 (by omega), rfl⟩
    · rcases hz with ⟨rfl, h⟩ | ⟨rfl, h⟩
      · left; rw [if_pos h]; simp
      · right; rw [if_pos h]; simp

end TR
