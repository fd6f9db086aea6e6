import Verif.Build.Maps
import Verif.Maze.EdgeProps
/-! The edges and the off-track marks of the new grid. -/
namespace TR

/-- the calls `initEdges` makes -/
inductive BuildOp (box : Box) (i : Bool) : GOp → Prop
  | edge (n : MIdx) (d : Dir) (hd : d = .E ∨ d = .N ∨ d = .U) : BuildOp box i (.addEdge n d box i)
  | costE (n : MIdx) : BuildOp box i (.setGridCostE n)
  | costN (n : MIdx) : BuildOp box i (.setGridCostN n)
  | costU (n : MIdx) : BuildOp box i (.setGridCostU n)

theorem addEdge_put (g : Grid) (k : MIdx) (a : Attr) (v : Nat) (n : MIdx) (d : Dir) (box : Box) (i : Bool)
    (hd : d ≠ .UNKNOWN) : ((g.put k a v).addEdge n d box i).2 = (g.addEdge n d box i).2 := by
  rw [Bool.eq_iff_iff, c09_add_succeeds_iff _ _ _ _ _ hd, c09_add_succeeds_iff _ _ _ _ _ hd]
  exact Iff.rfl

theorem addEdge_step (g : Grid) (op : GOp) (hl : op.Legal g) (n : MIdx) (d : Dir) (box : Box) (i : Bool)
    (hd : d ≠ .UNKNOWN) : ((g.step op).addEdge n d box i).2 = (g.addEdge n d box i).2 := by
  rcases step_normal g op hl with h | ⟨k, a, v, _, _, h⟩
  · rw [h]
  · rw [h]; exact addEdge_put g k a v n d box i hd

theorem run_edges (box : Box) (i : Bool) (ops : List GOp) : ∀ (g : Grid), (∀ op ∈ ops, op.Legal g) →
    (∀ op ∈ ops, BuildOp box i op) → ∀ m e,
    ((g.run ops).hasEdge m e = true ↔ g.hasEdge m e = true ∨
      ∃ n d, GOp.addEdge n d box i ∈ ops ∧ SameEdge n d m e ∧ (g.addEdge n d box i).2 = true) := by
  induction ops with
  | nil => intro g _ _ m e; simp [Grid.run]
  | cons op ops ih =>
    intro g hl hb m e
    have h1 := hl op (by simp)
    have ih' := ih (g.step op) (fun o ho => legal_step g op o h1 (hl o (List.mem_cons_of_mem _ ho)))
      (fun o ho => hb o (List.mem_cons_of_mem _ ho)) m e
    have e1 : (g.run (op :: ops)) = (g.step op).run ops := rfl
    rw [e1, ih', c09_step g op h1]
    have tail : (∃ n d, GOp.addEdge n d box i ∈ ops ∧ SameEdge n d m e ∧
        ((g.step op).addEdge n d box i).2 = true) ↔
        ∃ n d, GOp.addEdge n d box i ∈ ops ∧ SameEdge n d m e ∧ (g.addEdge n d box i).2 = true := by
      constructor
      · rintro ⟨n, d, ho, hs, ht⟩
        refine ⟨n, d, ho, hs, ?_⟩
        have hd : d ≠ .UNKNOWN := by
          have := hb _ (List.mem_cons_of_mem _ ho)
          cases this with
          | edge _ _ hd => rcases hd with rfl | rfl | rfl <;> decide
        rw [addEdge_step g op h1 n d box i hd] at ht; exact ht
      · rintro ⟨n, d, ho, hs, ht⟩
        refine ⟨n, d, ho, hs, ?_⟩
        have hd : d ≠ .UNKNOWN := by
          have := hb _ (List.mem_cons_of_mem _ ho)
          cases this with
          | edge _ _ hd => rcases hd with rfl | rfl | rfl <;> decide
        rw [addEdge_step g op h1 n d box i hd]; exact ht
    rw [tail]
    have hop := hb op (by simp)
    cases hop with
    | edge n d hd =>
      simp only [edgeEffect, List.mem_cons, GOp.addEdge.injEq]
      by_cases hc : SameEdge n d m e ∧ (g.addEdge n d box i).2 = true
      · rw [if_pos hc]
        simp only [true_or, true_iff]
        exact Or.inr ⟨n, d, Or.inl ⟨rfl, rfl, trivial, trivial⟩, hc⟩
      · rw [if_neg hc]
        constructor
        · rintro (h | ⟨n', d', h, h'⟩)
          · exact Or.inl h
          · exact Or.inr ⟨n', d', Or.inr h, h'⟩
        · rintro (h | ⟨n', d', ⟨rfl, rfl, _⟩ | h, h'⟩)
          · exact Or.inl h
          · exact absurd h' hc
          · exact Or.inr ⟨n', d', h, h'⟩
    | costE n => simp [edgeEffect]
    | costN n => simp [edgeEffect]
    | costU n => simp [edgeEffect]

/-- the calls that set an off-track mark -/
def markOp (n : MIdx) : Attr → Option GOp
  | .gridE => some (.setGridCostE n)
  | .gridN => some (.setGridCostN n)
  | .gridU => some (.setGridCostU n)
  | _ => none

theorem run_marks (box : Box) (i : Bool) (ops : List GOp) : ∀ (g : Grid), (∀ op ∈ ops, op.Legal g) →
    (∀ op ∈ ops, BuildOp box i op) → ∀ m a o, markOp m a = some o → g.On m →
    ((g.run ops).attr m a ≠ 0 ↔ g.attr m a ≠ 0 ∨ o ∈ ops) := by
  induction ops with
  | nil => intro g _ _ m a o _ _; simp [Grid.run]
  | cons op ops ih =>
    intro g hl hb m a o ho hm
    have h1 := hl op (by simp)
    have ih' := ih (g.step op) (fun o ho => legal_step g op o h1 (hl o (List.mem_cons_of_mem _ ho)))
      (fun o ho => hb o (List.mem_cons_of_mem _ ho)) m a o ho ((on_step g op h1 m).2 hm)
    have e1 : (g.run (op :: ops)) = (g.step op).run ops := rfl
    rw [e1, ih']
    have key : (g.step op).attr m a ≠ 0 ↔ g.attr m a ≠ 0 ∨ o = op := by
      by_cases heq : o = op
      · subst heq
        have hv : g.isValid m = true := (on_iff g m).1 hm
        simp only [or_true, iff_true]
        cases a <;> simp only [markOp, Option.some.injEq, reduceCtorEq] at ho <;> subst ho
        · have : g.step (.setGridCostE m) = g.put m .gridE 1 :=
            upd_congr g (g.idx m) (setBit · 12) (fun w => setBits w 12 1 1) (setBit_eq _ 12 (by decide))
          rw [this, put_attr g m m _ _ _ hv hv, if_pos ⟨rfl, rfl⟩]; decide
        · have : g.step (.setGridCostN m) = g.put m .gridN 1 :=
            upd_congr g (g.idx m) (setBit · 13) (fun w => setBits w 13 1 1) (setBit_eq _ 13 (by decide))
          rw [this, put_attr g m m _ _ _ hv hv, if_pos ⟨rfl, rfl⟩]; decide
        · have : g.step (.setGridCostU m) = g.put m .gridU 1 :=
            upd_congr g (g.idx m) (setBit · 14) (fun w => setBits w 14 1 1) (setBit_eq _ 14 (by decide))
          rw [this, put_attr g m m _ _ _ hv hv, if_pos ⟨rfl, rfl⟩]; decide
      · have ht : op.target ≠ some (m, a) := by
          intro ht
          have hop := hb op (by simp)
          cases hop with
          | edge n d hd =>
            rcases hd with rfl | rfl | rfl <;>
              simp only [GOp.target, edgeHome, byAxis, Option.some.injEq, Prod.mk.injEq] at ht <;>
              obtain ⟨_, rfl⟩ := ht <;> simp [markOp] at ho
          | costE n =>
            simp only [GOp.target, Option.some.injEq, Prod.mk.injEq] at ht
            obtain ⟨rfl, rfl⟩ := ht
            simp [markOp] at ho; exact heq ho.symm
          | costN n =>
            simp only [GOp.target, Option.some.injEq, Prod.mk.injEq] at ht
            obtain ⟨rfl, rfl⟩ := ht
            simp [markOp] at ho; exact heq ho.symm
          | costU n =>
            simp only [GOp.target, Option.some.injEq, Prod.mk.injEq] at ht
            obtain ⟨rfl, rfl⟩ := ht
            simp [markOp] at ho; exact heq ho.symm
        rw [c08_single_attribute g op h1 m a hm ht]
        simp [heq]
    rw [key, List.mem_cons, or_assoc]

/-! ### the calls of `initEdges` -/

theorem mem_edgeOps (T : GTech) (m : CoordMaps) (box : Box) (i : Bool) (op : GOp) :
    op ∈ edgeOps T m box i ↔ ∃ (k j h : Nat) (l y x : Int) (fy fx : Int → Option Bool),
      T.layers[k]? = some l ∧ m.y[j]? = some (y, fy) ∧ m.x[h]? = some (x, fx) ∧
      op ∈ cellOps T box i ⟨h, j, k⟩ l fy fx := by
  unfold edgeOps
  simp only [List.mem_flatMap]
  constructor
  · rintro ⟨⟨l, k⟩, h1, ⟨⟨y, fy⟩, j⟩, h2, ⟨⟨x, fx⟩, h⟩, h3, h4⟩
    exact ⟨k, j, h, l, y, x, fy, fx, List.mem_zipIdx_iff_getElem?.1 h1, List.mem_zipIdx_iff_getElem?.1 h2,
      List.mem_zipIdx_iff_getElem?.1 h3, h4⟩
  · rintro ⟨k, j, h, l, y, x, fy, fx, h1, h2, h3, h4⟩
    exact ⟨(l, k), List.mem_zipIdx_iff_getElem?.2 h1, ((y, fy), j), List.mem_zipIdx_iff_getElem?.2 h2,
      ((x, fx), h), List.mem_zipIdx_iff_getElem?.2 h3, h4⟩

/-- planar routing is open on a layer -/
def GTech.Open (T : GTech) (l : Int) : Prop := T.botRoute ≤ l ∧ l ≤ T.topRoute

theorem cell_build (T : GTech) (box : Box) (i : Bool) (n : MIdx) (l : Int) (fy fx : Int → Option Bool) :
    ∀ op ∈ cellOps T box i n l fy fx, BuildOp box i op ∧
      ∀ m a, op.target = some (m, a) → m = n := by
  have hE : BuildOp box i (.addEdge n .E box i) ∧ ∀ m a, (GOp.addEdge n .E box i).target = some (m, a) → m = n :=
    ⟨.edge n _ (Or.inl rfl), fun m a h => by simp [GOp.target, edgeHome, byAxis] at h; exact h.1.symm⟩
  have hN : BuildOp box i (.addEdge n .N box i) ∧ ∀ m a, (GOp.addEdge n .N box i).target = some (m, a) → m = n :=
    ⟨.edge n _ (Or.inr (Or.inl rfl)), fun m a h => by simp [GOp.target, edgeHome, byAxis] at h; exact h.1.symm⟩
  have hU : BuildOp box i (.addEdge n .U box i) ∧ ∀ m a, (GOp.addEdge n .U box i).target = some (m, a) → m = n :=
    ⟨.edge n _ (Or.inr (Or.inr rfl)), fun m a h => by simp [GOp.target, edgeHome, byAxis] at h; exact h.1.symm⟩
  have cE : BuildOp box i (.setGridCostE n) ∧ ∀ m a, (GOp.setGridCostE n).target = some (m, a) → m = n :=
    ⟨.costE n, fun m a h => by simp [GOp.target] at h; exact h.1.symm⟩
  have cN : BuildOp box i (.setGridCostN n) ∧ ∀ m a, (GOp.setGridCostN n).target = some (m, a) → m = n :=
    ⟨.costN n, fun m a h => by simp [GOp.target] at h; exact h.1.symm⟩
  have cU : BuildOp box i (.setGridCostU n) ∧ ∀ m a, (GOp.setGridCostU n).target = some (m, a) → m = n :=
    ⟨.costU n, fun m a h => by simp [GOp.target] at h; exact h.1.symm⟩
  have two : ∀ (o1 o2 : GOp) (c : Bool), (BuildOp box i o1 ∧ ∀ m a, o1.target = some (m, a) → m = n) →
      (BuildOp box i o2 ∧ ∀ m a, o2.target = some (m, a) → m = n) → ∀ op ∈ o1 :: (if c then [o2] else []),
      BuildOp box i op ∧ ∀ m a, op.target = some (m, a) → m = n := by
    intro o1 o2 c h1 h2 op hop
    rcases List.mem_cons.1 hop with rfl | hop
    · exact h1
    · cases c
      · simp at hop
      · simp at hop; subst hop; exact h2
  intro op hop
  unfold cellOps at hop
  simp only [List.mem_append] at hop
  rcases hop with hop | hop
  · split at hop
    · split at hop
      · cases hop
      · rcases List.mem_append.1 hop with hop | hop
        · split at hop
          · exact two _ _ _ hE cE op hop
          · cases hop
        · split at hop
          · cases hop
          · split at hop
            · cases hop
            · exact two _ _ _ hU cU op hop
    · split at hop
      · cases hop
      · rcases List.mem_append.1 hop with hop | hop
        · split at hop
          · exact two _ _ _ hN cN op hop
          · cases hop
        · split at hop
          · cases hop
          · split at hop
            · cases hop
            · exact two _ _ _ hU cU op hop
  · split at hop
    · split at hop
      · split at hop
        · cases hop
        · split at hop
          · exact two _ _ true hN cN op hop
          · cases hop
      · split at hop
        · cases hop
        · split at hop
          · exact two _ _ true hE cE op hop
          · cases hop
    · cases hop

/-- a line answer that a layer may use for its own wires -/
def UseAns (onGrid : Bool) (a : Option Bool) : Prop := a = some true ∨ (onGrid = false ∧ a = some false)

instance (b a) : Decidable (UseAns b a) := by unfold UseAns; infer_instance

/-- the preferred-direction part of `cellOps` -/
def planarBlk (add cost : GOp) (opn onGrid : Bool) (a : Option Bool) : List GOp :=
  match a with
  | none => []
  | some p => if opn && (!onGrid || p) then add :: (if !p then [cost] else []) else []

/-- the via part -/
def viaBlk (add cost : GOp) (og og2 : Bool) (a b : Option Bool) : List GOp :=
  match a, b with
  | some p, some q => if (og && !p) || (og2 && !q) then [] else add :: (if !p || !q then [cost] else [])
  | _, _ => []

/-- the part against the preferred direction -/
def wrongBlk (add cost : GOp) (np opn : Bool) (a : Option Bool) : List GOp :=
  match a with
  | none => []
  | some _ => if np && opn then [add, cost] else []

theorem cell_blocks (T : GTech) (box : Box) (i : Bool) (n : MIdx) (l : Int) (fy fx : Int → Option Bool) :
    ∃ opn : Bool, (opn = true ↔ T.Open l) ∧ cellOps T box i n l fy fx =
    if T.hor l then
      planarBlk (.addEdge n .E box i) (.setGridCostE n) opn (T.onGrid l) (fy l) ++
      (viaBlk (.addEdge n .U box i) (.setGridCostU n) (T.onGrid l) (T.onGrid (T.nonPrefLayer l)) (fy l) (fx (l + 2)) ++
      wrongBlk (.addEdge n .N box i) (.setGridCostN n) T.nonPref opn (fx (T.nonPrefLayer l)))
    else
      planarBlk (.addEdge n .N box i) (.setGridCostN n) opn (T.onGrid l) (fx l) ++
      (viaBlk (.addEdge n .U box i) (.setGridCostU n) (T.onGrid l) (T.onGrid (T.nonPrefLayer l)) (fx l) (fy (l + 2)) ++
      wrongBlk (.addEdge n .E box i) (.setGridCostE n) T.nonPref opn (fy (T.nonPrefLayer l))) := by
  refine ⟨decide (T.botRoute ≤ l) && decide (l ≤ T.topRoute), by simp [GTech.Open], ?_⟩
  unfold cellOps
  generalize (decide (T.botRoute ≤ l) && decide (l ≤ T.topRoute)) = opn
  cases T.hor l
  · simp only [Bool.false_eq_true, if_false]
    rw [← List.append_assoc]
    congr 1
    · cases fx l <;> cases fy (l + 2) <;> simp [planarBlk, viaBlk, or_comm]
    · cases T.nonPref <;> cases fy (T.nonPrefLayer l) <;> simp [wrongBlk]
  · simp only [if_true]
    rw [← List.append_assoc]
    congr 1
    · cases fy l <;> cases fx (l + 2) <;> simp [planarBlk, viaBlk]
    · cases T.nonPref <;> cases fx (T.nonPrefLayer l) <;> simp [wrongBlk]

theorem mem_planarBlk (add cost op : GOp) (opn og : Bool) (a : Option Bool) :
    op ∈ planarBlk add cost opn og a ↔
      (op = add ∧ opn = true ∧ UseAns og a) ∨ (op = cost ∧ opn = true ∧ og = false ∧ a = some false) := by
  cases a with
  | none => simp [planarBlk, UseAns]
  | some p => cases p <;> cases opn <;> cases og <;> simp [planarBlk, UseAns]

theorem mem_viaBlk (add cost op : GOp) (og og2 : Bool) (a b : Option Bool) :
    op ∈ viaBlk add cost og og2 a b ↔
      (op = add ∧ UseAns og a ∧ UseAns og2 b) ∨
      (op = cost ∧ UseAns og a ∧ UseAns og2 b ∧ (a = some false ∨ b = some false)) := by
  cases a with
  | none => simp [viaBlk, UseAns]
  | some p =>
    cases b with
    | none => simp [viaBlk, UseAns]
    | some q => cases p <;> cases q <;> cases og <;> cases og2 <;> simp [viaBlk, UseAns]

theorem mem_wrongBlk (add cost op : GOp) (np opn : Bool) (a : Option Bool) :
    op ∈ wrongBlk add cost np opn a ↔ (op = add ∨ op = cost) ∧ np = true ∧ opn = true ∧ a ≠ none := by
  cases a with
  | none => simp [wrongBlk]
  | some p => cases np <;> cases opn <;> simp [wrongBlk]

theorem cell_addE (T : GTech) (box : Box) (i : Bool) (n n' : MIdx) (l : Int) (fy fx : Int → Option Bool) :
    GOp.addEdge n' .E box i ∈ cellOps T box i n l fy fx ↔
      n' = n ∧ T.Open l ∧ ((T.hor l = true ∧ UseAns (T.onGrid l) (fy l)) ∨
        (T.hor l = false ∧ T.nonPref = true ∧ fy (T.nonPrefLayer l) ≠ none)) := by
  obtain ⟨opn, h1, h2⟩ := cell_blocks T box i n l fy fx
  rw [h2, ← h1]
  cases hh : T.hor l
  · simp only [Bool.false_eq_true, if_false, List.mem_append, mem_planarBlk, mem_viaBlk, mem_wrongBlk]
    simp [and_left_comm]
  · simp only [if_true, List.mem_append, mem_planarBlk, mem_viaBlk, mem_wrongBlk]
    simp

theorem cell_addN (T : GTech) (box : Box) (i : Bool) (n n' : MIdx) (l : Int) (fy fx : Int → Option Bool) :
    GOp.addEdge n' .N box i ∈ cellOps T box i n l fy fx ↔
      n' = n ∧ T.Open l ∧ ((T.hor l = false ∧ UseAns (T.onGrid l) (fx l)) ∨
        (T.hor l = true ∧ T.nonPref = true ∧ fx (T.nonPrefLayer l) ≠ none)) := by
  obtain ⟨opn, h1, h2⟩ := cell_blocks T box i n l fy fx
  rw [h2, ← h1]
  cases hh : T.hor l
  · simp only [Bool.false_eq_true, if_false, List.mem_append, mem_planarBlk, mem_viaBlk, mem_wrongBlk]
    simp
  · simp only [if_true, List.mem_append, mem_planarBlk, mem_viaBlk, mem_wrongBlk]
    simp [and_left_comm]

theorem cell_addU (T : GTech) (box : Box) (i : Bool) (n n' : MIdx) (l : Int) (fy fx : Int → Option Bool) :
    GOp.addEdge n' .U box i ∈ cellOps T box i n l fy fx ↔
      n' = n ∧ ((T.hor l = true ∧ UseAns (T.onGrid l) (fy l) ∧
          UseAns (T.onGrid (T.nonPrefLayer l)) (fx (l + 2))) ∨
        (T.hor l = false ∧ UseAns (T.onGrid l) (fx l) ∧
          UseAns (T.onGrid (T.nonPrefLayer l)) (fy (l + 2)))) := by
  obtain ⟨opn, h1, h2⟩ := cell_blocks T box i n l fy fx
  rw [h2]
  cases hh : T.hor l
  · simp only [Bool.false_eq_true, if_false, List.mem_append, mem_planarBlk, mem_viaBlk, mem_wrongBlk]
    simp
  · simp only [if_true, List.mem_append, mem_planarBlk, mem_viaBlk, mem_wrongBlk]
    simp

theorem cell_costE (T : GTech) (box : Box) (i : Bool) (n n' : MIdx) (l : Int) (fy fx : Int → Option Bool) :
    GOp.setGridCostE n' ∈ cellOps T box i n l fy fx ↔
      n' = n ∧ T.Open l ∧ ((T.hor l = true ∧ T.onGrid l = false ∧ fy l = some false) ∨
        (T.hor l = false ∧ T.nonPref = true ∧ fy (T.nonPrefLayer l) ≠ none)) := by
  obtain ⟨opn, h1, h2⟩ := cell_blocks T box i n l fy fx
  rw [h2, ← h1]
  cases hh : T.hor l
  · simp only [Bool.false_eq_true, if_false, List.mem_append, mem_planarBlk, mem_viaBlk, mem_wrongBlk]
    simp [and_left_comm]
  · simp only [if_true, List.mem_append, mem_planarBlk, mem_viaBlk, mem_wrongBlk]
    simp

theorem cell_costN (T : GTech) (box : Box) (i : Bool) (n n' : MIdx) (l : Int) (fy fx : Int → Option Bool) :
    GOp.setGridCostN n' ∈ cellOps T box i n l fy fx ↔
      n' = n ∧ T.Open l ∧ ((T.hor l = false ∧ T.onGrid l = false ∧ fx l = some false) ∨
        (T.hor l = true ∧ T.nonPref = true ∧ fx (T.nonPrefLayer l) ≠ none)) := by
  obtain ⟨opn, h1, h2⟩ := cell_blocks T box i n l fy fx
  rw [h2, ← h1]
  cases hh : T.hor l
  · simp only [Bool.false_eq_true, if_false, List.mem_append, mem_planarBlk, mem_viaBlk, mem_wrongBlk]
    simp
  · simp only [if_true, List.mem_append, mem_planarBlk, mem_viaBlk, mem_wrongBlk]
    simp [and_left_comm]

theorem cell_costU (T : GTech) (box : Box) (i : Bool) (n n' : MIdx) (l : Int) (fy fx : Int → Option Bool) :
    GOp.setGridCostU n' ∈ cellOps T box i n l fy fx ↔
      n' = n ∧ ((T.hor l = true ∧ UseAns (T.onGrid l) (fy l) ∧
          UseAns (T.onGrid (T.nonPrefLayer l)) (fx (l + 2)) ∧ (fy l = some false ∨ fx (l + 2) = some false)) ∨
        (T.hor l = false ∧ UseAns (T.onGrid l) (fx l) ∧
          UseAns (T.onGrid (T.nonPrefLayer l)) (fy (l + 2)) ∧ (fx l = some false ∨ fy (l + 2) = some false))) := by
  obtain ⟨opn, h1, h2⟩ := cell_blocks T box i n l fy fx
  rw [h2]
  cases hh : T.hor l
  · simp only [Bool.false_eq_true, if_false, List.mem_append, mem_planarBlk, mem_viaBlk, mem_wrongBlk]
    simp
  · simp only [if_true, List.mem_append, mem_planarBlk, mem_viaBlk, mem_wrongBlk]
    simp

end TR
