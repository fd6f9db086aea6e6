import Verif.Build.Props
/-! Property theorems C87: the off-track marks of a new maze grid. -/
namespace TR

theorem empty_attr (T : GTech) (m : CoordMaps) (f : Bool) (n : MIdx) (a : Attr) :
    (emptyGrid T m f).attr n a = 0 := by
  show (0#64).toNat / 2 ^ a.field.1 % 2 ^ a.field.2 = 0
  simp

theorem build_mark (T : GTech) (r e : Box) (objs : List BObj) (i f : Bool) (n : MIdx) (a : Attr) (o : GOp)
    (ho : markOp n a = some o) (hn : (buildGrid T r e objs i f).On n) :
    (buildGrid T r e objs i f).attr n a ≠ 0 ↔ o ∈ edgeOps T (regionMaps T r e objs) r i := by
  have hn' : (emptyGrid T (regionMaps T r e objs) f).On n := by
    obtain ⟨hx, hy, hz, _⟩ := build_fixed T r e objs i f
    unfold Grid.On at hn ⊢
    rw [hx, hy, hz] at hn
    exact hn
  unfold buildGrid
  rw [run_marks r i _ _ (edgeOps_legal T _ r i f) (edgeOps_build T _ r i) n a o ho hn', empty_attr]
  simp

theorem gridCost_attr (g : Grid) (n : MIdx) :
    g.hasGridCost n .E = (g.attr n .gridE != 0) ∧ g.hasGridCost n .N = (g.attr n .gridN != 0) ∧
    g.hasGridCost n .U = (g.attr n .gridU != 0) := by
  simp only [attr_eq, Grid.hasGridCost, correct, Attr.field]
  exact ⟨getBit_eq _ _ (by decide), getBit_eq _ _ (by decide), getBit_eq _ _ (by decide)⟩

/-- the exact condition for the eastern mark of a node -/
theorem markE_iff (T : GTech) (ht : T.Ok) (r e : Box) (objs : List BObj) (ho : ∀ o ∈ objs, o.Ok T)
    (i f : Bool) (n : MIdx) (p : Point) (l : Int) (hn : (buildGrid T r e objs i f).At n p l) :
    (buildGrid T r e objs i f).hasGridCost n .E = true ↔ T.botRoute ≤ l ∧ l ≤ T.topRoute ∧
      ((T.hor l = true ∧ T.onGrid l = false ∧ ¬ T.TrackY e l p.y ∧ ∃ o ∈ objs, o.LineY T l p.y) ∨
       (T.hor l = false ∧ T.nonPref = true ∧ T.LineY e objs (T.pairLayer l) p.y)) := by
  have hon := (at_on hn).1
  rw [(gridCost_attr _ _).1, bne_iff_ne, build_mark T r e objs i f n .gridE _ rfl hon]
  obtain ⟨h, j, k, fx, fy, rfl, h1, h2, h3⟩ := (build_at _ _ _ _ _ _ _ _ _).1 hn
  obtain ⟨w1, w2, _, _⟩ := region_look T ht r e objs ho
  have hl := ht.low l (List.mem_of_getElem? h3)
  rw [edgeOps_node T _ r i _ h j k p.x p.y l fx fy h1 h2 h3
    (fun n' l fy fx hop => ((cell_costE T r i n' _ l fy fx).1 hop).1.symm), cell_costE,
    ← look_at w2 h2, ← look_at w2 h2, nonPref_pair T l hl.1,
    (look_lines T ht r e objs ho (T.onGrid l) l (by omega) p.y).2.2.2.2.2,
    (look_lines T ht r e objs ho true (T.pairLayer l) (pair_nonneg T l hl.1) p.y).2.2.2.1]
  unfold GTech.Open
  simp only [true_and, and_assoc]

theorem markN_iff (T : GTech) (ht : T.Ok) (r e : Box) (objs : List BObj) (ho : ∀ o ∈ objs, o.Ok T)
    (i f : Bool) (n : MIdx) (p : Point) (l : Int) (hn : (buildGrid T r e objs i f).At n p l) :
    (buildGrid T r e objs i f).hasGridCost n .N = true ↔ T.botRoute ≤ l ∧ l ≤ T.topRoute ∧
      ((T.hor l = false ∧ T.onGrid l = false ∧ ¬ T.TrackX e l p.x ∧ ∃ o ∈ objs, o.LineX T l p.x) ∨
       (T.hor l = true ∧ T.nonPref = true ∧ T.LineX e objs (T.pairLayer l) p.x)) := by
  have hon := (at_on hn).1
  rw [(gridCost_attr _ _).2.1, bne_iff_ne, build_mark T r e objs i f n .gridN _ rfl hon]
  obtain ⟨h, j, k, fx, fy, rfl, h1, h2, h3⟩ := (build_at _ _ _ _ _ _ _ _ _).1 hn
  obtain ⟨w1, w2, _, _⟩ := region_look T ht r e objs ho
  have hl := ht.low l (List.mem_of_getElem? h3)
  rw [edgeOps_node T _ r i _ h j k p.x p.y l fx fy h1 h2 h3
    (fun n' l fy fx hop => ((cell_costN T r i n' _ l fy fx).1 hop).1.symm), cell_costN,
    ← look_at w1 h1, ← look_at w1 h1, nonPref_pair T l hl.1,
    (look_lines T ht r e objs ho (T.onGrid l) l (by omega) p.x).2.2.2.2.1,
    (look_lines T ht r e objs ho true (T.pairLayer l) (pair_nonneg T l hl.1) p.x).2.2.1]
  unfold GTech.Open
  simp only [true_and, and_assoc]

/-- C87: an east–west edge of the new grid is marked as off-track exactly if it runs against the
direction of its layer or does not lie on a track of the layer. -/
theorem c87_east (T : GTech) (ht : T.Ok) (r e : Box) (objs : List BObj) (ho : ∀ o ∈ objs, o.Ok T)
    (initDR followGuide : Bool) (g : Grid) (hg : g = buildGrid T r e objs initDR followGuide)
    (n : MIdx) (p : Point) (l : Int) (hn : g.At n p l) (hedge : g.hasEdge n .E = true) :
    g.hasGridCost n .E = true ↔ T.hor l = false ∨ ¬ T.TrackY e l p.y := by
  have he := (c86_east T ht r e objs ho initDR followGuide g hg n p l hn).1 hedge
  subst hg
  rw [markE_iff T ht r e objs ho initDR followGuide n p l hn]
  obtain ⟨_, h1, h2, h3⟩ := he
  constructor
  · rintro ⟨_, _, ⟨_, _, h, _⟩ | ⟨h, _⟩⟩
    · exact Or.inr h
    · exact Or.inl h
  · intro h
    refine ⟨h1, h2, ?_⟩
    rcases h3 with ⟨a, b⟩ | b
    · have hnt : ¬ T.TrackY e l p.y := by
        rcases h with h | h
        · rw [a] at h; cases h
        · exact h
      rcases b with b | ⟨b, c⟩
      · exact absurd b hnt
      · exact Or.inl ⟨a, b, hnt, c⟩
    · exact Or.inr b

/-- C87: the same for north–south edges. -/
theorem c87_north (T : GTech) (ht : T.Ok) (r e : Box) (objs : List BObj) (ho : ∀ o ∈ objs, o.Ok T)
    (initDR followGuide : Bool) (g : Grid) (hg : g = buildGrid T r e objs initDR followGuide)
    (n : MIdx) (p : Point) (l : Int) (hn : g.At n p l) (hedge : g.hasEdge n .N = true) :
    g.hasGridCost n .N = true ↔ T.hor l = true ∨ ¬ T.TrackX e l p.x := by
  have he := (c86_north T ht r e objs ho initDR followGuide g hg n p l hn).1 hedge
  subst hg
  rw [markN_iff T ht r e objs ho initDR followGuide n p l hn]
  obtain ⟨_, h1, h2, h3⟩ := he
  constructor
  · rintro ⟨_, _, ⟨_, _, h, _⟩ | ⟨h, _⟩⟩
    · exact Or.inr h
    · exact Or.inl h
  · intro h
    refine ⟨h1, h2, ?_⟩
    rcases h3 with ⟨a, b⟩ | b
    · have hnt : ¬ T.TrackX e l p.x := by
        rcases h with h | h
        · rw [a] at h; cases h
        · exact h
      rcases b with b | ⟨b, c⟩
      · exact absurd b hnt
      · exact Or.inl ⟨a, b, hnt, c⟩
    · exact Or.inr b

/-- C87: a via edge is marked exactly if one of the two lines meeting there is not a track of its
layer. -/
theorem c87_up (T : GTech) (ht : T.Ok) (r e : Box) (objs : List BObj) (ho : ∀ o ∈ objs, o.Ok T)
    (initDR followGuide : Bool) (g : Grid) (hg : g = buildGrid T r e objs initDR followGuide)
    (n : MIdx) (p : Point) (l : Int) (hn : g.At n p l) (hedge : g.hasEdge n .U = true) :
    g.hasGridCost n .U = true ↔
      (T.hor l = true ∧ ¬ (T.TrackY e l p.y ∧ T.TrackX e (l + 2) p.x)) ∨
      (T.hor l = false ∧ ¬ (T.TrackX e l p.x ∧ T.TrackY e (l + 2) p.y)) := by
  classical
  subst hg
  have hadd := ((build_edge T r e objs initDR followGuide .U (Or.inr (Or.inr rfl)) n p l hn).1 hedge).1
  have hon := (at_on hn).1
  rw [(gridCost_attr _ _).2.2, bne_iff_ne, build_mark T r e objs initDR followGuide n .gridU _ rfl hon]
  obtain ⟨h, j, k, fx, fy, rfl, h1, h2, h3⟩ := (build_at _ _ _ _ _ _ _ _ _).1 hn
  obtain ⟨w1, w2, lx, ly⟩ := region_look T ht r e objs ho
  have hl := ht.low l (List.mem_of_getElem? h3)
  rw [edgeOps_node T _ r initDR _ h j k p.x p.y l fx fy h1 h2 h3
    (fun n' l fy fx hop => ((cell_addU T r initDR n' _ l fy fx).1 hop).1.symm), cell_addU] at hadd
  rw [edgeOps_node T _ r initDR _ h j k p.x p.y l fx fy h1 h2 h3
    (fun n' l fy fx hop => ((cell_costU T r initDR n' _ l fy fx).1 hop).1.symm), cell_costU]
  have tf : ∀ (og : Bool) (a : Option Bool), UseAns og a → (a = some false ↔ ¬ a = some true) := by
    intro og a ha
    rcases ha with h | ⟨_, h⟩ <;> rw [h] <;> simp
  have ex : ∀ l', fx l' = some true ↔ T.TrackX e l' p.x := fun l' => by
    rw [← look_at w1 h1]; exact (lx l' p.x).1
  have ey : ∀ l', fy l' = some true ↔ T.TrackY e l' p.y := fun l' => by
    rw [← look_at w2 h2]; exact (ly l' p.y).1
  rw [← ex, ← ex, ← ey, ← ey]
  obtain ⟨_, ⟨a, b, c⟩ | ⟨a, b, c⟩⟩ := hadd
  · simp only [a, b, c, true_and, tf _ _ b, tf _ _ c, Bool.true_eq_false, false_and, or_false]
    exact Decidable.not_and_iff_not_or_not.symm
  · simp only [a, b, c, true_and, tf _ _ b, tf _ _ c, Bool.false_eq_true, false_and, false_or]
    exact Decidable.not_and_iff_not_or_not.symm

end TR
