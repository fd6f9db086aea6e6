import Verif.NetCost.Block
/-! C137–C143: the costs in a worker's grid while its nets are routed. -/
namespace TR

/-! ### concrete workers -/

def exNGrid : Grid := { exCGrid with xs := [0, 1000, 2000, 3000, 4000], ys := [0, 1000, 2000, 3000, 4000] }

def exNAp : NetAp := ⟨⟨2, 2, 0⟩, ⟨2000, 2000⟩, fun d => d = .U, some exVia, 0, true, false⟩

def exNA : WNet := ⟨0, [], [], [⟨.cell, [exNAp]⟩]⟩

def exNB : WNet := ⟨1, [], [.wire ⟨⟨-20, 2980⟩, ⟨2020, 3020⟩⟩ ⟨0, 3, 0⟩ ⟨2, 3, 0⟩], []⟩

/-- an obstruction, a pin with an access point off the tracks of the layer above, a routed wire, a design pin -/
def exNEnv : WEnv := ⟨exCTech, [.obs ⟨⟨900, 900⟩, ⟨1100, 1100⟩⟩ 0], [[⟨⟨⟨1900, 1980⟩, ⟨2100, 2020⟩⟩, 0, false⟩], []], [exNA, exNB],
  [(⟨⟨2900, 900⟩, ⟨4000, 1000⟩⟩, 0)], true⟩

def exNVia : CFig := .via exVia ⟨2000, 2000⟩ 0 1

def exPatch : CFig := .patch ⟨⟨980, 980⟩, ⟨1020, 1020⟩⟩ 0

/-- two nets, one of them with a patch of metal -/
def exPEnv : WEnv := ⟨exCTech, [], [], [⟨0, [], [], []⟩, ⟨1, [], [exPatch], []⟩], [], false⟩

/-- a terminal of a macro, wide enough for a rule on the number of cuts nearby, and an access point with a larger cut -/
def exMEnv : WEnv := ⟨{ exCTech with mincut := fun _ => [⟨90, some (150, 1770), none⟩] }, [], [[⟨⟨⟨-400, -400⟩, ⟨50, 50⟩⟩, 0, true⟩]],
  [⟨0, [], [], [⟨.cell, [⟨⟨1, 1, 0⟩, ⟨1000, 1000⟩, fun d => d = .U, some { exVia with cuts := [⟨⟨-20, -20⟩, ⟨20, 20⟩⟩] }, 0, true, true⟩]⟩]⟩], [], false⟩

theorem exNSorted : exNGrid.Sorted := by unfold Grid.Sorted StrictInc; decide

theorem exNViasFit (mc : Int → List MCutRule) : ViasFit { exCTech with mincut := mc } exNGrid := by
  intro z h1 h2
  have : z = 0 ∨ z = 1 ∨ z = 2 := by
    have : z < 3 := h2
    omega
  rcases this with rfl | rfl | rfl
  · refine ⟨?_, ?_, ?_, ?_⟩
    · intro v h; exact nomatch h
    · intro v h; exact nomatch h
    · intro v h; decide
    · intro h; cases h <;> intro h' <;> exact nomatch h'
  · refine ⟨?_, ?_, ?_, ?_⟩ <;> intros <;> first | decide | (rename_i h; exact nomatch h)
  · refine ⟨?_, ?_, ?_, ?_⟩ <;> intros <;> first | decide | (rename_i h; exact nomatch h)

theorem exNFits : exNEnv.Fits exNGrid := by
  refine ⟨exNSorted, exNViasFit _, ?_, ?_, ?_⟩
  · intro n hn f hf
    simp only [exNEnv, List.mem_cons, List.not_mem_nil, or_false] at hn
    rcases hn with rfl | rfl <;> cases hf
  · intro n hn f hf
    simp only [exNEnv, List.mem_cons, List.not_mem_nil, or_false] at hn
    rcases hn with rfl | rfl
    · cases hf
    · simp only [exNB, List.mem_cons, List.not_mem_nil, or_false] at hf
      subst hf
      exact ⟨by decide, by decide, rfl⟩
  · intro n hn a ha
    simp only [exNEnv, List.mem_cons, List.not_mem_nil, or_false] at hn
    rcases hn with rfl | rfl
    · simp only [exNA, WNet.aps, List.flatMap_cons, List.flatMap_nil, List.append_nil, List.mem_cons, List.not_mem_nil, or_false] at ha
      subst ha
      exact ⟨by decide, fun _ => by decide⟩
    · cases ha

theorem exPFits : exPEnv.Fits exNGrid := by
  refine ⟨exNSorted, exNViasFit _, ?_, ?_, ?_⟩
  · intro n hn f hf
    simp only [exPEnv, List.mem_cons, List.not_mem_nil, or_false] at hn
    rcases hn with rfl | rfl <;> cases hf
  · intro n hn f hf
    simp only [exPEnv, List.mem_cons, List.not_mem_nil, or_false] at hn
    rcases hn with rfl | rfl
    · cases hf
    · simp only [List.mem_cons, List.not_mem_nil, or_false] at hf
      subst hf
      exact ⟨by decide, by decide⟩
  · intro n hn a ha
    simp only [exPEnv, List.mem_cons, List.not_mem_nil, or_false] at hn
    rcases hn with rfl | rfl <;> cases ha

theorem exMFits : exMEnv.Fits exNGrid := by
  refine ⟨exNSorted, exNViasFit _, ?_, ?_, ?_⟩
  · intro n hn f hf
    simp only [exMEnv, List.mem_cons, List.not_mem_nil, or_false] at hn
    subst hn; cases hf
  · intro n hn f hf
    simp only [exMEnv, List.mem_cons, List.not_mem_nil, or_false] at hn
    subst hn; cases hf
  · intro n hn a ha
    simp only [exMEnv, List.mem_cons, List.not_mem_nil, or_false] at hn
    subst hn
    simp only [WNet.aps, List.flatMap_cons, List.flatMap_nil, List.append_nil, List.mem_cons, List.not_mem_nil, or_false] at ha
    subst ha
    exact ⟨by decide, fun _ => by decide⟩

/-- the state a step leads to -/
def exStep (o : Option WState) : WState := o.getD ⟨exNGrid, [], []⟩

theorem exStep_eq {o : Option WState} (h : o.isSome = true) : o = some (exStep o) := by
  cases o with
  | none => cases h
  | some s => rfl

/-- net A is routed with one via -/
def exN1 : WState := exStep (exNEnv.begin (exNEnv.start exNGrid) 0)
def exN2 : WState := exStep (exNEnv.finish exN1 0 [exNVia] [])

theorem exN1_run : WRun exNEnv exNGrid (fun t => t = (⟨2, 2, 0⟩, true)) false exN1 (some 0) := by
  refine .begin (.start ?_) (exStep_eq (by decide +kernel)) ?_
  · rintro t rfl; decide +kernel
  · rintro t n rfl hn; cases hn; decide +kernel

theorem exN2_run : WRun exNEnv exNGrid (fun t => t = (⟨2, 2, 0⟩, true)) false exN2 none := by
  refine .finish exN1_run (exStep_eq (by decide +kernel)) ?_ ?_ (fun _ => rfl) ?_
  · intro f hf
    simp only [List.mem_cons, List.not_mem_nil, or_false] at hf
    subst hf; exact ⟨by decide, by decide, by decide, by decide⟩
  · intro p hp; cases hp
  · rintro t n rfl hn; cases hn; decide +kernel

/-! ### C137: counters of fixed shapes -/

/-- C137: whatever nets a worker routes, in whatever order and however often: between two nets every counter of fixed shapes holds the
charges of all fixed shapes and terminals; while a net is routed it holds these less the charges of the terminals of that net. (For nets
whose terminals belong to standard cells; charges up to 255.) -/
theorem c137_fixed_shapes_partial {E : WEnv} {g : Grid} (hE : E.Fits g) {lim : CTgt → Prop} {pat : Bool} {s : WState} {busy : Option Nat}
    (h : WRun E g lim pat s busy) (hcell : ∀ n ∈ E.nets, ∀ r ∈ E.termsOf n, r.ofMacro = false)
    (t : CTgt) (ht : g.On t.1) (hb : g.attr t.1 (fixAttr t.2) + E.fixedCharge g t ≤ 255) :
    (busy = none → s.grid.attr t.1 (fixAttr t.2) = g.attr t.1 (fixAttr t.2) + E.fixedCharge g t) ∧
    (∀ k n, busy = some k → E.nets[k]? = some n →
      s.grid.attr t.1 (fixAttr t.2) = g.attr t.1 (fixAttr t.2) + E.fixedCharge g t - E.ownCharge g n t ∧ E.ownCharge g n t ≤ E.fixedCharge g t) := by
  have h1 := run_shape hE h t ht hb (fun n hn => by have := own_le E g n (hcell n hn) t; omega)
  refine ⟨h1.1, fun k n hk hn => ?_⟩
  have h2 := h1.2 k n hk hn
  have h3 := own_le E g n (hcell n (List.mem_of_getElem? hn)) t
  omega

/-- C137: with terminals of macros this holds for the counters that the terminals of each net charge no more often by the vias of the access
points than by the default vias -/
theorem c137_macros_partial {E : WEnv} {g : Grid} (hE : E.Fits g) {lim : CTgt → Prop} {pat : Bool} {s : WState} {busy : Option Nat}
    (h : WRun E g lim pat s busy) (t : CTgt) (ht : g.On t.1) (hb : g.attr t.1 (fixAttr t.2) + E.fixedCharge g t ≤ 255)
    (hown : ∀ n ∈ E.nets, E.ownCharge g n t ≤ E.fixedCharge g t) :
    (busy = none → s.grid.attr t.1 (fixAttr t.2) = g.attr t.1 (fixAttr t.2) + E.fixedCharge g t) ∧
    (∀ k n, busy = some k → E.nets[k]? = some n → s.grid.attr t.1 (fixAttr t.2) + E.ownCharge g n t = g.attr t.1 (fixAttr t.2) + E.fixedCharge g t) :=
  run_shape hE h t ht hb (fun n hn => by have := hown n hn; omega)

/-- C137 is false in general: special vias are not known yet when terminals are charged, but are when they are taken off and put back. After
one round a counter holds a charge no fixed shape makes. -/
theorem c137_macro_drift_witness : ∃ (E : WEnv) (g : Grid) (s : WState) (t : CTgt), E.Fits g ∧ WRun E g (fun _ => True) false s none ∧ g.On t.1 ∧
    g.attr t.1 (fixAttr t.2) + E.fixedCharge g t = 0 ∧ s.grid.attr t.1 (fixAttr t.2) = 1 := by
  have z : ∀ (s : WState) (b : Option Nat) t, s.figs = [[]] → exMEnv.owed exNGrid s b t = 0 := by
    intro s b t hf
    unfold WEnv.owed
    have : exMEnv.nets.length = 1 := rfl
    rw [this]
    simp only [List.range_one, List.map_cons, List.map_nil, List.sum_cons, List.sum_nil, Nat.add_zero]
    unfold WEnv.owedBy
    rw [hf]
    split
    · rename_i n fs tr h1 h2 h3
      cases h1; cases h2
      have : (exMEnv.fresh = true) = False := by simp [exMEnv]
      simp only [this, false_and, if_false]
      split <;> rfl
    · rfl
  have hz : ∀ t : CTgt, exNGrid.attr t.1 (ctrAttr t.2) = 0 := by
    rintro ⟨m, b⟩
    have : ∀ a, exNGrid.attr m a = 0 := by intro a; rw [attr_eq]; show getBits 0 _ _ = 0; cases a <;> decide
    exact this _
  refine ⟨exMEnv, exNGrid, exStep (exMEnv.finish (exStep (exMEnv.begin (exMEnv.start exNGrid) 0)) 0 [] []), (⟨1, 1, 0⟩, true), exMFits, ?_, by decide,
    by decide +kernel, by decide +kernel⟩
  refine .finish (.begin (.start ?_) (exStep_eq (by decide +kernel)) ?_) (exStep_eq (by decide +kernel)) (fun f h => by cases h) (fun f h => by cases h) (fun _ => rfl) ?_
  · intro t _; rw [z _ _ _ rfl, hz]; omega
  · intro t n _ hn; cases hn; rw [z _ _ _ rfl, hz]; simp [minCutCharge]
  · intro t n _ hn; cases hn; rw [z _ _ _ rfl, hz]; simp [chargeOf]

example : ∃ s, WRun exNEnv exNGrid (fun t => t = (⟨2, 2, 0⟩, true)) false s (some 0) ∧ (∀ n ∈ exNEnv.nets, ∀ r ∈ exNEnv.termsOf n, r.ofMacro = false) ∧
    exNEnv.fixedCharge exNGrid (⟨2, 2, 0⟩, false) = 1 ∧ exNEnv.ownCharge exNGrid exNA (⟨2, 2, 0⟩, false) = 1 ∧
    s.grid.attr ⟨2, 2, 0⟩ .shapeP = 0 ∧ (exStep (exNEnv.finish s 0 [exNVia] [])).grid.attr ⟨2, 2, 0⟩ .shapeP = 1 ∧
    exNEnv.fixedCharge exNGrid (⟨1, 1, 0⟩, false) = 1 ∧ s.grid.attr ⟨1, 1, 0⟩ .shapeP = 1 :=
  ⟨exN1, exN1_run, by decide, by decide +kernel, by decide +kernel, by decide +kernel, by decide +kernel, by decide +kernel, by decide +kernel⟩

/-! ### C138: counters of routed shapes -/

/-- C138: as long as the checker adds no patches, every counter of routed shapes holds exactly the charges of the shapes there are: of all nets,
inside and outside the region, and of the vias reserved for nets not routed yet; the net being routed has none of its own, except that its vias
outside the region count by the minimum cut rules. -/
theorem c138_routed_shapes {E : WEnv} {g : Grid} (hE : E.Fits g) {lim : CTgt → Prop} {s : WState} {busy : Option Nat}
    (h : WRun E g lim false s busy) (t : CTgt) (hl : lim t) (ht : g.On t.1) :
    s.grid.attr t.1 (ctrAttr t.2) = g.attr t.1 (ctrAttr t.2) + E.owed g s busy t := (winv_run hE h).eq rfl t hl ht

/-- C138: so a place none of the other nets' shapes charge looks free to the net being routed -/
theorem c138_free_place {E : WEnv} {g : Grid} (hE : E.Fits g) {lim : CTgt → Prop} {s : WState} {k : Nat} {n : WNet}
    (h : WRun E g lim false s (some k)) (hn : E.nets[k]? = some n) (t : CTgt) (hl : lim t) (ht : g.On t.1)
    (hfree : ∀ (i : Nat) (n' : WNet) (fs : List CFig), i ≠ k → E.nets[i]? = some n' → s.figs[i]? = some fs →
      chargeOf E.T g E.sv t n'.ext = 0 ∧ chargeOf E.T g E.sv t fs = 0 ∧ chargeOf E.T g E.sv t n'.reserved = 0) :
    s.grid.attr t.1 (ctrAttr t.2) = g.attr t.1 (ctrAttr t.2) + minCutCharge E.T g E.sv t n.ext := by
  have hI := winv_run hE h
  rw [hI.eq rfl t hl ht]
  congr 1
  have hk : k < E.nets.length := (List.getElem?_eq_some_iff.1 hn).1
  have hfs := hI.free k rfl
  have htr : ∃ tr, s.tries[k]? = some tr := ⟨_, List.getElem?_eq_getElem (by rw [hI.lenT]; exact hk)⟩
  obtain ⟨tr, htr⟩ := htr
  have hz : ∀ l : List Nat, (l.map (fun _ => (0 : Nat))).sum = 0 := by
    intro l
    induction l with
    | nil => rfl
    | cons x xs ih => rw [List.map_cons, List.sum_cons, ih]
  have h1 := sum_range_update (fun _ => 0) (E.owedBy g s (some k) t) E.nets.length k hk (by
    intro i hi
    unfold WEnv.owedBy
    split
    · rename_i n' fs tr' h1 h2 h3
      obtain ⟨a, b, c⟩ := hfree i n' fs hi h1 h2
      rw [if_neg (by intro e; cases e; exact hi rfl), a, b, c]
      simp
    · rfl)
  have h2 : E.owedBy g s (some k) t k = minCutCharge E.T g E.sv t n.ext := by
    unfold WEnv.owedBy
    rw [hn, hfs, htr]
    simp [chargeOf]
  unfold WEnv.owed
  have h3 := hz (List.range E.nets.length)
  omega

/-- C138: a net routed for the last time owes its shapes: the charge of each new shape is there afterwards -/
theorem c138_charged {E : WEnv} {g : Grid} (hE : E.Fits g) {lim : CTgt → Prop} {s : WState} (h : WRun E g lim false s none) (t : CTgt) (hl : lim t) (ht : g.On t.1)
    {k : Nat} {fs : List CFig} (hk : s.figs[k]? = some fs) : chargeOf E.T g E.sv t fs ≤ s.grid.attr t.1 (ctrAttr t.2) := by
  have hI := winv_run hE h
  rw [hI.eq rfl t hl ht]
  have hkl : k < E.nets.length := by rw [← hI.lenF]; exact (List.getElem?_eq_some_iff.1 hk).1
  have hn : ∃ n, E.nets[k]? = some n := ⟨_, List.getElem?_eq_getElem hkl⟩
  have htr : ∃ tr, s.tries[k]? = some tr := ⟨_, List.getElem?_eq_getElem (by rw [hI.lenT]; exact hkl)⟩
  obtain ⟨n, hn⟩ := hn
  obtain ⟨tr, htr⟩ := htr
  have h1 : chargeOf E.T g E.sv t fs ≤ E.owedBy g s none t k := by
    unfold WEnv.owedBy
    rw [hn, hk, htr]
    dsimp only
    omega
  have h2 : E.owedBy g s none t k ≤ E.owed g s none t := le_sum_of_mem (List.mem_map.2 ⟨k, List.mem_range.2 hkl, rfl⟩)
  omega

example : ∃ s s', WRun exNEnv exNGrid (fun t => t = (⟨2, 2, 0⟩, true)) false s (some 0) ∧ WRun exNEnv exNGrid (fun t => t = (⟨2, 2, 0⟩, true)) false s' none ∧
    (exNEnv.start exNGrid).grid.attr ⟨2, 2, 0⟩ .drcV = 3 ∧ s.grid.attr ⟨2, 2, 0⟩ .drcV = 0 ∧ s'.grid.attr ⟨2, 2, 0⟩ .drcV = 3 ∧
    exNEnv.owed exNGrid s' none (⟨2, 2, 0⟩, true) = 3 ∧ s.grid.attr ⟨2, 3, 0⟩ .drcP = 1 :=
  ⟨exN1, exN2, exN1_run, exN2_run, by decide +kernel, by decide +kernel, by decide +kernel, by decide +kernel, by decide +kernel⟩

/-! ### C139: patches -/

/-- C139: with patches, a counter of routed shapes never holds more than the shapes there are charge -/
theorem c139_never_over {E : WEnv} {g : Grid} (hE : E.Fits g) {lim : CTgt → Prop} {pat : Bool} {s : WState} {busy : Option Nat}
    (h : WRun E g lim pat s busy) (t : CTgt) (hl : lim t) (ht : g.On t.1) :
    s.grid.attr t.1 (ctrAttr t.2) ≤ g.attr t.1 (ctrAttr t.2) + E.owed g s busy t := (winv_run hE h).le t hl ht

/-- C139: but it may hold less, even a counter charged by another net's shape may read zero: a patch is charged neither when the checker adds it nor
later, yet taken off when its net is routed again. -/
theorem c139_patch_uncharged_witness : ∃ (E : WEnv) (g : Grid) (s : WState) (t : CTgt), E.Fits g ∧ WRun E g (fun u => u = t) true s (some 0) ∧ g.On t.1 ∧
    s.figs[1]? = some [exPatch] ∧ chargeOf E.T g E.sv t [exPatch] = 1 ∧ s.grid.attr t.1 (ctrAttr t.2) = 0 := by
  refine ⟨exPEnv, exNGrid, exStep (exPEnv.begin (exStep (exPEnv.finish (exStep (exPEnv.begin (exPEnv.start exNGrid) 0)) 0 [] [(0, exPatch)])) 0), (⟨1, 1, 0⟩, false),
    exPFits, ?_, by decide, ?_, by decide +kernel, by decide +kernel⟩
  · refine .begin (.finish (.begin (.start ?_) (exStep_eq (by decide +kernel)) ?_) (exStep_eq (by decide +kernel)) (fun f h => by cases h) ?_ (by simp) ?_)
      (exStep_eq (by decide +kernel)) ?_
    · rintro t rfl; decide +kernel
    · rintro t n rfl hn; cases hn; decide +kernel
    · intro p hp
      simp only [List.mem_cons, List.not_mem_nil, or_false] at hp
      subst hp; exact ⟨by decide, by decide⟩
    · rintro t n rfl hn; cases hn; decide +kernel
    · rintro t n rfl hn; cases hn; decide +kernel
  · rfl

/-! ### C140: fixed shapes at the vias of a net's own access points -/

/-- C140: fixed shapes are overlooked only for the net being routed, and only for a via up from an access point of one of its pins that allows
it; everywhere else, and between nets, the counter decides. -/
theorem c140_own_access {E : WEnv} {g : Grid} (hE : E.Fits g) {lim : CTgt → Prop} {pat : Bool} {s : WState} {busy : Option Nat}
    (h : WRun E g lim pat s busy) (h0 : ∀ m, g.On m → g.attr m .override = 0) (m : MIdx) (hm : g.On m) :
    (busy = none → s.grid.hasShapeCost m .U = (s.grid.attr m .shapeV != 0)) ∧
    (∀ k n, busy = some k → E.nets[k]? = some n →
      (n.ViaUpAt m → s.grid.hasShapeCost m .U = false) ∧ (¬ n.ViaUpAt m → s.grid.hasShapeCost m .U = (s.grid.attr m .shapeV != 0))) := by
  have h1 := run_ovr hE h h0 m hm
  have hq := (c08_queries s.grid m).2.2.2.2.2.2.2.2.2.2.2.2.2.2.1
  constructor
  · intro hb; rw [hq, h1.1 hb]; rfl
  · intro k n hk hn
    have h2 := h1.2 k n hk hn
    constructor
    · intro hv; rw [hq, h2.1 hv]; rfl
    · intro hv; rw [hq, h2.2 hv]; rfl

example : ∃ s, WRun exNEnv exNGrid (fun t => t = (⟨2, 2, 0⟩, true)) false s (some 0) ∧ exNA.ViaUpAt ⟨2, 2, 0⟩ ∧ s.grid.attr ⟨2, 2, 0⟩ .shapeV = 3 ∧
    s.grid.hasShapeCost ⟨2, 2, 0⟩ .U = false ∧ exN2.grid.hasShapeCost ⟨2, 2, 0⟩ .U = true :=
  ⟨exN1, exN1_run, ⟨⟨.cell, [exNAp]⟩, by simp [exNA], by decide, exNAp, by simp, by decide, rfl⟩, by decide +kernel, by decide +kernel, by decide +kernel⟩

/-! ### C141: costs off the tracks -/

/-- C141: an edge is marked as off the tracks iff it was at the start or lies on a line of a net routed before — and, while a net is routed, does not
lie on one of its own lines -/
theorem c141_off_track {E : WEnv} {g : Grid} (hE : E.Fits g) {lim : CTgt → Prop} {pat : Bool} {s : WState} {busy : Option Nat}
    (h : WRun E g lim pat s busy) (m : MIdx) (e : Dir) (he : e ≠ .UNKNOWN) (hm : g.On m) (hme : g.On (m.nbr e)) :
    (busy = none → (s.grid.hasGridCost m e = true ↔ E.Dear g s m e)) ∧
    (∀ k n, busy = some k → E.nets[k]? = some n → (s.grid.hasGridCost m e = true ↔ E.Dear g s m e ∧ ¬ n.Lined E.T g m e)) :=
  run_grid hE h m e he hm hme

/-- C141: so marks are not restored: a net leaves marks on edges that lie on tracks -/
theorem c141_marks_left_witness : ∃ (E : WEnv) (g : Grid) (s : WState) (m : MIdx), E.Fits g ∧ (∃ lim, WRun E g lim false s none) ∧
    g.hasGridCost m .N = false ∧ s.grid.hasGridCost m .N = true :=
  ⟨exNEnv, exNGrid, exN2, ⟨2, 2, 1⟩, exNFits, ⟨_, exN2_run⟩, by decide, by decide +kernel⟩

/-- C141: walking along a line reads only coordinates of the grid iff somewhere on the line, past the next node, the distance from that node exceeds
the length of the line; at the border, or with the border nearer than that, it reads past the end. -/
theorem c141_walk_defined (g : Grid) (hs : g.Sorted) (set : Bool) (m : MIdx) (d : Dir) (hd : d = .E ∨ d = .W ∨ d = .N ∨ d = .S) (b : Int) (hb : 0 ≤ b)
    (hx : m.x ≤ g.xs.length) (hy : m.y ≤ g.ys.length) (hx0 : 0 ≤ m.x) (hy0 : 0 ≤ m.y) :
    (stretchOps g set m d b).isSome = true ↔ ∃ c k a, coordIf (g.coordsOf d) (alongOf d (m.nbr d)) = some c ∧ coordIf (g.coordsOf d) k = some a ∧
      (if d = .E ∨ d = .N then c + b < a else a + b < c) := by
  unfold stretchOps
  dsimp only
  rw [Option.isSome_map]
  have e1 : (if decide (d = .E ∨ d = .W) = true then g.xs else g.ys) = g.coordsOf d := by unfold Grid.coordsOf; simp
  have e2 : (if decide (d = .E ∨ d = .W) = true then m.x else m.y) = alongOf d m := by unfold alongOf; simp
  rw [e1, e2]
  have hnb : alongOf d (m.nbr d) = onward (decide (d = .E ∨ d = .N)) (alongOf d m) := by
    rcases hd with rfl | rfl | rfl | rfl <;> simp [alongOf, onward, MIdx.nbr, Dir.delta] <;> omega
  rw [hnb]
  cases hc : coordIf (g.coordsOf d) (onward (decide (d = .E ∨ d = .N)) (alongOf d m)) with
  | none =>
    rw [stretch_border _ b hb _ _ hc]
    simp
  | some c =>
    have hso := sorted_coordsOf hs d
    rw [stretch_some hso _ b _ _ 0 c hc (by
      unfold Grid.coordsOf alongOf
      rcases hd with rfl | rfl | rfl | rfl <;> simp <;> omega) (by omega)]
    constructor
    · rintro ⟨k, a, h1, h2, h3⟩
      refine ⟨c, k, a, rfl, h1, ?_⟩
      rcases hd with rfl | rfl | rfl | rfl <;> simp [way] at * <;> omega
    · rintro ⟨c', k, a, h0, h1, h2⟩
      cases h0
      refine ⟨k, a, h1, ?_, ?_⟩
      · have h3 := coordIf_lt hso h1 hc
        have h4 := coordIf_lt hso hc h1
        rcases hd with rfl | rfl | rfl | rfl <;> simp [beyond] at * <;> omega
      · rcases hd with rfl | rfl | rfl | rfl <;> simp [way] at * <;> omega

example : exNA.Lined exNEnv.T exNGrid ⟨2, 2, 1⟩ .N ∧ (stretchOps exNGrid true ⟨2, 2, 1⟩ .N 400).isSome = true ∧
    (stretchOps exNGrid true ⟨2, 3, 1⟩ .N 400).isSome = false ∧ (stretchOps exNGrid true ⟨2, 4, 1⟩ .N 400).isSome = false := by
  refine ⟨⟨⟨2, 2, 1⟩, .N, 400, (mem_lines _ _ _ _ _ _).1 (by decide), ⟨2, 2, 1⟩, ⟨rfl, rfl, by decide, 3000, 3000, rfl, rfl, by decide, by decide⟩, .N, Or.inl rfl, Or.inl ⟨rfl, rfl⟩⟩,
    by decide, by decide, by decide⟩

/-! ### C142: edges blocked -/

/-- C142: while nets are routed no edge is blocked or freed. An edge with an end in the rectangle of a design pin is blocked if it leads up, down or
across the longer side of the rectangle; otherwise the last access point at one of its ends decides, by what it allows, whatever else blocked the
edge; without any, it is as the fixed shapes left it. -/
theorem c142_blocked {E : WEnv} {g : Grid} (hE : E.Fits g) (hz : ∀ p ∈ E.pins, 0 ≤ p.2 ∧ p.2 < g.zs.length) {lim : CTgt → Prop} {pat : Bool} {s : WState} {busy : Option Nat}
    (h : WRun E g lim pat s busy) (m : MIdx) (e : Dir) (hm : g.On m) (hme : g.On (m.nbr e)) :
    ((∃ p ∈ E.pins, PinStops g p m e) → s.grid.isBlocked m e = true) ∧
    ((∀ p ∈ E.pins, ¬ PinStops g p m e) →
      (∀ pre a post d, E.nets.flatMap (·.aps) = pre ++ a :: post → (∀ b ∈ post, ¬ b.Touches m e) → d ≠ .UNKNOWN → SameEdge a.at' d m e →
        s.grid.isBlocked m e = !a.valid d) ∧
      ((∀ a ∈ E.nets.flatMap (·.aps), ¬ a.Touches m e) → s.grid.isBlocked m e = g.isBlocked m e)) := by
  rw [run_blocked hE h m e hm hme]
  exact init_blocked hE hz hm hme

example : (∀ p ∈ exNEnv.pins, 0 ≤ p.2 ∧ p.2 < exNGrid.zs.length) ∧ PinStops exNGrid (⟨⟨2900, 900⟩, ⟨4000, 1000⟩⟩, 0) ⟨3, 1, 0⟩ .N ∧
    exN1.grid.isBlocked ⟨3, 1, 0⟩ .N = true ∧ exN1.grid.isBlocked ⟨3, 1, 0⟩ .E = false ∧ SameEdge exNAp.at' .E ⟨3, 2, 0⟩ .W ∧
    exN1.grid.isBlocked ⟨3, 2, 0⟩ .W = true ∧ exN1.grid.isBlocked ⟨2, 2, 0⟩ .U = false := by
  refine ⟨by decide, ⟨by decide, Or.inl ⟨rfl, ⟨3000, 1000⟩, rfl, by unfold Box.Has; decide⟩⟩, by decide +kernel, by decide +kernel, by decide, by decide +kernel, by decide +kernel⟩

/-! ### C143: reserved vias -/

theorem cheapest_spec : ∀ (l : List NetAp) (best : Option NetAp),
    match cheapest l best with
    | none => best = none ∧ ∀ b ∈ l, b.via = none
    | some a => (∀ b ∈ l, b.via.isSome = true → a.cost ≤ b.cost) ∧ ∀ b, best = some b → a.cost ≤ b.cost := by
  intro l
  induction l with
  | nil =>
    intro best
    cases best with
    | none => exact ⟨rfl, by simp⟩
    | some b => exact ⟨by simp, fun c hc => by cases hc; exact Nat.le_refl _⟩
  | cons x xs ih =>
    intro best
    by_cases hv : x.via.isSome = true
    · by_cases hc : x.cost < (best.getD x).cost
      · by_cases h0 : x.cost = 0
        · have : cheapest (x :: xs) best = some x := by unfold cheapest; dsimp only; rw [if_pos hv, if_pos hc, if_pos h0]
          rw [this]
          exact ⟨fun b _ _ => by omega, fun b _ => by omega⟩
        · have : cheapest (x :: xs) best = cheapest xs (some x) := by rw [cheapest]; dsimp only; rw [if_pos hv, if_pos hc, if_neg h0]
          rw [this]
          have h1 := ih (some x)
          split at h1
          · cases h1.1
          · rename_i a ha
            have hx := h1.2 x rfl
            refine ⟨fun b hb hbv => ?_, fun b hb => ?_⟩
            · rcases List.mem_cons.1 hb with rfl | hb
              · exact hx
              · exact h1.1 b hb hbv
            · subst hb; simp at hc; omega
      · have : cheapest (x :: xs) best = cheapest xs (some (best.getD x)) := by rw [cheapest]; dsimp only; rw [if_pos hv, if_neg hc]
        rw [this]
        have h1 := ih (some (best.getD x))
        split at h1
        · cases h1.1
        · rename_i a ha
          have hx := h1.2 _ rfl
          refine ⟨fun b hb hbv => ?_, fun b hb => ?_⟩
          · rcases List.mem_cons.1 hb with rfl | hb
            · omega
            · exact h1.1 b hb hbv
          · subst hb; exact hx
    · have : cheapest (x :: xs) best = cheapest xs best := by rw [cheapest]; rw [if_neg hv]
      rw [this]
      have h1 := ih best
      split at h1
      · refine ⟨h1.1, fun b hb => ?_⟩
        rcases List.mem_cons.1 hb with rfl | hb
        · simpa using hv
        · exact h1.2 b hb
      · refine ⟨fun b hb hbv => ?_, h1.2⟩
        rcases List.mem_cons.1 hb with rfl | hb
        · exact absurd hbv hv
        · exact h1.1 b hb hbv

/-- C143: for a pin of a standard cell or of the design one via is reserved, at its cheapest access point with a via, if it has one; for other pins none -/
theorem c143_reserved (p : NetPin) :
    ((p.kind = .none ∨ p.kind = .block ∨ ∀ a ∈ p.aps, a.via = none) → reservedVia p = []) ∧
    ((p.kind = .cell ∨ p.kind = .design) → (∃ a ∈ p.aps, a.via ≠ none) →
      ∃ a v, a ∈ p.aps ∧ a.via = some v ∧ (∀ b ∈ p.aps, b.via ≠ none → a.cost ≤ b.cost) ∧
        reservedVia p = [.via v a.pt a.at'.z (a.at'.z + 1)]) := by
  have hs := cheapest_spec p.aps none
  constructor
  · intro h
    unfold reservedVia
    cases hc : cheapest p.aps none with
    | none => cases p.kind <;> rfl
    | some a =>
      rcases cheapest_mem _ _ _ hc with h1 | h1
      · rcases h with h | h | h
        · rw [h]
        · rw [h]
        · rw [h a h1.1] at h1; cases h1.2
      · cases h1
  · rintro hk ⟨a, ha, hv⟩
    cases hc : cheapest p.aps none with
    | none => rw [hc] at hs; exact absurd (hs.2 a ha) hv
    | some c =>
      rw [hc] at hs
      rcases cheapest_mem _ _ _ hc with h1 | h1
      · obtain ⟨v, hv'⟩ := Option.isSome_iff_exists.1 h1.2
        refine ⟨c, v, h1.1, hv', fun b hb hbv => hs.1 b hb (by cases hbb : b.via <;> simp_all), ?_⟩
        unfold reservedVia
        rcases hk with hk | hk <;> rw [hk, hc] <;> simp only [hv']
      · cases h1

example : reservedVia ⟨.cell, [{ exNAp with cost := 3 }, exNAp]⟩ = [.via exVia ⟨2000, 2000⟩ 0 1] := rfl

end TR
