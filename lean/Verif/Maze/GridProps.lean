import Verif.Maze.GridStep
/-! Property theorems C05 (maze index), C06–C11, C44 about the maze grid. -/
namespace TR

/-- A small grid used in the non-vacuity examples: 4 x 3 x 2, layer 0 horizontal. -/
def demoGrid : Grid :=
  { xs := [0, 10, 25, 30], ys := [0, 7, 20], zs := [2, 4], zDir := fun z => decide (z = 0),
    bits := fun _ => 0#64, srcs := fun _ => false, dsts := fun _ => false, guides := fun _ => false,
    prevs := fun _ => false }

theorem on_iff (g : Grid) (n : MIdx) : g.On n ↔ g.isValid n = true := by
  rw [isValid_iff]; rfl

/-! ## C05 -/

theorem mlt_iff (a b : MIdx) : MIdx.lt a b = true ↔
    a.x < b.x ∨ (a.x = b.x ∧ (a.y < b.y ∨ (a.y = b.y ∧ a.z < b.z))) := by
  simp only [MIdx.lt]
  split
  · simp; omega
  · split
    · simp; omega
    · simp; omega

/-- C05: maze indices, keys of the pin maps, are strictly totally ordered. -/
theorem c05_maze_index_order : StrictTotal MIdx.lt := by
  refine ⟨?_, ?_, ?_⟩
  · intro a; simp [MIdx.lt]
  · intro a b c; simp only [mlt_iff]; omega
  · rintro ⟨a, b, c⟩ ⟨d, e, f⟩ h
    simp only [mlt_iff, ne_eq, MIdx.mk.injEq] at *; omega

/-! ## C06 -/

theorem wlt_iff (a b : WaveKey) : WaveKey.lt a b = true ↔ WavePrefer b a := by
  simp only [WaveKey.lt, WavePrefer]
  split
  · simp; omega
  · split
    · simp; omega
    · split <;> simp <;> omega

/-- C06: the priority, seen as a relation on frontier entries with arbitrary extra data, is a
strict weak order. -/
theorem c06_strict_weak {α : Type} (key : α → WaveKey) :
    StrictWeak (fun a b => WaveKey.lt (key a) (key b)) := by
  have hf : ∀ a b : WaveKey, WaveKey.lt a b = false ↔ ¬ WavePrefer b a := by
    intro a b; rw [← wlt_iff]; simp
  refine ⟨?_, ?_, ?_⟩
  · intro a; simp [WaveKey.lt]
  · intro a b c; simp only [wlt_iff, WavePrefer]; omega
  · intro a b c; simp only [hf, WavePrefer]; omega

/-- C06: any entry a priority queue with this comparison may return (a member no other entry
beats) has minimal cost and, among those, is decided by distance, layer, path cost. -/
theorem c06_top_contract (l : List WaveKey) (t : WaveKey)
    (hmax : ∀ k ∈ l, WaveKey.lt t k = false) :
    (∀ k ∈ l, t.cost ≤ k.cost) ∧ (∀ k ∈ l, WavePrefer t k ∨ k = t) := by
  have hf : ∀ a b : WaveKey, WaveKey.lt a b = false ↔ ¬ WavePrefer b a := by
    intro a b; rw [← wlt_iff]; simp
  constructor
  · intro k hk
    have := hmax k hk
    simp only [hf, WavePrefer] at this; omega
  · intro k hk
    have := hmax k hk
    simp only [hf] at this
    rcases t with ⟨a, b, c, d⟩; rcases k with ⟨a', b', c', d'⟩
    simp only [WavePrefer, WaveKey.mk.injEq] at *; omega

/-- C06: the scan returns a member of the frontier that no member beats. -/
theorem c06_top (ks : List WaveKey) (h : WaveKey) :
    waveTop h ks ∈ h :: ks ∧ ∀ k ∈ h :: ks, WavePrefer (waveTop h ks) k ∨ k = waveTop h ks := by
  have key : ∀ (ks : List WaveKey) (h : WaveKey), waveTop h ks ∈ h :: ks ∧
      ∀ k ∈ h :: ks, WaveKey.lt (waveTop h ks) k = false := by
    intro ks
    induction ks with
    | nil => intro h; simp [waveTop, WaveKey.lt]
    | cons k ks ih =>
      intro h
      simp only [waveTop]
      have hf : ∀ a b : WaveKey, WaveKey.lt a b = false ↔ ¬ WavePrefer b a := by
        intro a b; rw [← wlt_iff]; simp
      split
      · rename_i hlt
        obtain ⟨h1, h2⟩ := ih k
        refine ⟨List.mem_cons_of_mem _ h1, ?_⟩
        intro j hj
        rcases List.mem_cons.1 hj with rfl | hj
        · have := h2 k (by simp)
          rw [hf] at *; rw [wlt_iff] at hlt; simp only [WavePrefer] at *; omega
        · exact h2 j hj
      · rename_i hlt
        obtain ⟨h1, h2⟩ := ih h
        refine ⟨?_, ?_⟩
        · rcases List.mem_cons.1 h1 with h1 | h1
          · rw [h1]; simp
          · simp [h1]
        · intro j hj
          rcases List.mem_cons.1 hj with rfl | hj
          · exact h2 _ (by simp)
          · rcases List.mem_cons.1 hj with rfl | hj
            · have := h2 h (by simp)
              rw [wlt_iff] at hlt; rw [hf] at *; simp only [WavePrefer] at *; omega
            · exact h2 j (by simp [hj])
  exact ⟨(key ks h).1, (c06_top_contract _ _ (key ks h).2).2⟩

example : waveTop ⟨7, 3, 1, 0⟩ [⟨5, 9, 0, 2⟩, ⟨5, 4, 0, 1⟩, ⟨5, 4, 1, 0⟩] = ⟨5, 4, 1, 0⟩ := by decide

/-- C06: the two-direction backtrace buffer behaves as a two-slot shift register. -/
theorem c06_buffer (d1 d2 d3 : Dir) :
    let b := (bufShiftAdd (bufShiftAdd 0#6 d1).2 d2).2
    bufLastDir b = d2 ∧ (bufShiftAdd b d3).1 = d1 ∧
      (bufShiftAdd (bufShiftAdd b d3).2 d3).1 = d2 ∧ bufLastDir (bufShiftAdd b d3).2 = d3 := by
  cases d1 <;> cases d2 <;> cases d3 <;> decide

/-! ## C07 -/

/-- C07: different nodes of the grid have different positions, all inside the array. -/
theorem c07_storage_injective (g : Grid) (n m : MIdx) (hn : g.On n) (hm : g.On m) :
    (n ≠ m → g.idx n ≠ g.idx m) ∧
    0 ≤ g.idx n ∧ g.idx n < (g.xs.length : Int) * g.ys.length * g.zs.length := by
  rw [on_iff] at hn hm
  exact ⟨fun h e => h (idx_inj g hn hm e), idx_range g hn⟩

example : demoGrid.On ⟨3, 2, 1⟩ ∧ demoGrid.On ⟨2, 2, 1⟩ ∧ demoGrid.On ⟨3, 2, 0⟩ := by decide

/-- C07: the validity test used throughout is exactly "on the grid". -/
theorem c07_valid_iff (g : Grid) (n : MIdx) : g.isValid n = true ↔ g.On n := (on_iff g n).symm

/-! ## C08 -/

@[simp] theorem put_isValid (g : Grid) (n a v m) : (g.put n a v).isValid m = g.isValid m := rfl

theorem step_isValid (g : Grid) (op : GOp) (hl : op.Legal g) (m : MIdx) :
    (g.step op).isValid m = g.isValid m := by
  rcases step_normal g op hl with h | ⟨n, a, v, _, _, h⟩ <;> rw [h]; rfl

/-- C08: a legal call leaves every attribute of every node other than its target unchanged. -/
theorem c08_single_attribute (g : Grid) (op : GOp) (hl : op.Legal g) (m : MIdx) (b : Attr)
    (hm : g.On m) (ht : op.target ≠ some (m, b)) : (g.step op).attr m b = g.attr m b := by
  rw [on_iff] at hm
  rcases step_normal g op hl with h | ⟨n, a, v, h1, h2, h3⟩
  · rw [h]
  · rw [h3, put_attr g n m a b v h2 hm]
    have : ¬ (m = n ∧ b = a) := by rintro ⟨rfl, rfl⟩; exact ht h1
    simp [this]

theorem legal_step (g : Grid) (op op' : GOp) (hl : op.Legal g) (h : op'.Legal g) :
    op'.Legal (g.step op) := by
  rcases h with h | h
  · exact Or.inl h
  · right; intro n a e; rw [step_isValid g op hl]; exact h n a e

/-- C08 over histories. -/
theorem c08_history (ops : List GOp) : ∀ (g : Grid), (∀ op ∈ ops, op.Legal g) →
    ∀ (m : MIdx) (b : Attr), g.On m → (∀ op ∈ ops, op.target ≠ some (m, b)) →
    (g.run ops).attr m b = g.attr m b := by
  induction ops with
  | nil => intro g _ m b _ _; rfl
  | cons op ops ih =>
    intro g hl m b hm ht
    have h1 := hl op (by simp)
    have : (g.run (op :: ops)) = (g.step op).run ops := rfl
    rw [this, ih (g.step op) (fun o ho => legal_step g op o h1 (hl o (by simp [ho]))) m b
      ((on_iff _ _).2 (by rw [step_isValid g op h1]; exact (on_iff _ _).1 hm)) (fun o ho => ht o (by simp [ho]))]
    exact c08_single_attribute g op h1 m b hm (ht op (by simp))

example : ∀ op ∈ [GOp.addDRCPlanar ⟨1, 1, 0⟩, .addEdge ⟨1, 1, 0⟩ .W ⟨⟨0, 0⟩, ⟨30, 20⟩⟩ false,
    .setBlocked ⟨9, 9, 9⟩ .S], op.Legal demoGrid ∧ op.target ≠ some (⟨1, 1, 0⟩, .shapeP) := by
  intro op h
  simp only [List.mem_cons, List.not_mem_nil, or_false] at h
  rcases h with rfl | rfl | rfl
  · refine ⟨Or.inr ?_, by decide⟩
    intro n a e; cases e; decide
  · exact ⟨Or.inl rfl, by decide⟩
  · exact ⟨Or.inl rfl, by decide⟩

/-- the attribute values are what the query functions of the grid report -/
theorem c08_queries (g : Grid) (n : MIdx) :
    g.hasEdge n .E = (decide (g.On n) && g.attr n .edgeE != 0) ∧
    g.hasEdge n .N = (decide (g.On n) && g.attr n .edgeN != 0) ∧
    g.hasEdge n .U = (decide (g.On n) && g.attr n .edgeU != 0) ∧
    g.isBlocked n .E = (decide (g.On n) && g.attr n .blockE != 0) ∧
    g.isBlocked n .N = (decide (g.On n) && g.attr n .blockN != 0) ∧
    g.isBlocked n .U = (decide (g.On n) && g.attr n .blockU != 0) ∧
    g.hasGridCost n .E = (g.attr n .gridE != 0) ∧
    g.hasGridCost n .N = (g.attr n .gridN != 0) ∧
    g.hasGridCost n .U = (g.attr n .gridU != 0) ∧
    g.isSVia n = (g.attr n .svia != 0) ∧
    g.isOverrideShapeCost n .U = (g.attr n .override != 0) ∧
    (∀ d, d ≠ .U → d ≠ .D → d ≠ .UNKNOWN →
      g.hasDRCCost n d = (g.attr (n.nbr d) .drcP != 0) ∧
      g.hasMarkerCost n d = (g.attr (n.nbr d) .markP != 0) ∧
      g.hasShapeCost n d = (g.attr (n.nbr d) .shapeP != 0)) ∧
    (g.hasDRCCost n .U = (g.attr n .drcV != 0) ∧ g.hasDRCCost n .D = (g.attr (n.nbr .D) .drcV != 0)) ∧
    (g.hasMarkerCost n .U = (g.attr n .markV != 0) ∧
      g.hasMarkerCost n .D = (g.attr (n.nbr .D) .markV != 0)) ∧
    (g.hasShapeCost n .U = (!(g.attr n .override != 0) && g.attr n .shapeV != 0) ∧
      g.hasShapeCost n .D =
        (!(g.attr (n.nbr .D) .override != 0) && g.attr (n.nbr .D) .shapeV != 0)) := by
  have hv : (decide (g.On n)) = g.isValid n := by
    rw [Bool.eq_iff_iff]; simp [on_iff]
  have hD : (n.nbr .D) = ⟨n.x, n.y, n.z - 1⟩ := by
    simp [MIdx.nbr, Dir.delta]; omega
  have gb : ∀ (m : MIdx) (p : Nat), p < 64 → getBit (g.bits (g.idx m)) p = (getBits (g.bits (g.idx m)) p 1 != 0) :=
    fun m p hp => getBit_eq _ p hp
  refine ⟨?_, ?_, ?_, ?_, ?_, ?_, ?_, ?_, ?_, ?_, ?_, ?_, ?_, ?_, ?_⟩
  case refine_12 =>
    intro d h1 h2 h3
    have hr : (reverse n d).1 = n.nbr d := by
      cases d <;> simp [reverse, MIdx.nbr, Dir.delta] <;> omega
    simp only [attr_eq, Attr.field, ← hr]
    cases d <;> simp_all [Grid.hasDRCCost, Grid.hasMarkerCost, Grid.hasShapeCost, DRCBITS]
  all_goals
    rw [attr_eq] <;> try rw [attr_eq]
  all_goals
    simp only [Attr.field, hv, hD, attr_eq, Grid.hasEdge, Grid.isBlocked, Grid.hasGridCost, correct, Grid.isSVia,
      Grid.isOverrideShapeCost, correctU, Grid.hasDRCCost, Grid.hasMarkerCost, Grid.hasShapeCost, DRCBITS]
    try simp [gb]
  all_goals
    constructor <;> (congr 1; rw [bne, Bool.not_not]; exact (Bool.beq_eq_decide_eq _ _).symm)

/-- C08 is false of `decayMarkerCost(dir, factor)`, whose switch lacks `break`s: decaying the
marker cost of an east edge also changes the via marker counter of the node. (The function has
no caller at this commit.) -/
theorem c08_decay_fallthrough_witness :
    ∃ (g : Grid) (n : MIdx) (f : Nat → Int), g.On n ∧ g.attr n .markV = 10 ∧
      ((g.decayMarkerF n .E f).1).attr n .markV = 9 := by
  refine ⟨(demoGrid.addMarkerVia ⟨1, 1, 0⟩), ⟨1, 1, 0⟩, fun c => (c : Int) - 1, by decide, by decide, by decide⟩

end TR
