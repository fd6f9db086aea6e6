import Verif.Maze.EdgeProps
/-! Property theorems C11: search labels. -/
namespace TR

theorem lstep_dims (g : Grid) (op : LOp) :
    (g.lstep op).xs = g.xs ∧ (g.lstep op).ys = g.ys ∧ (g.lstep op).zs = g.zs ∧
    (g.lstep op).zDir = g.zDir ∧ (g.lstep op).bits = g.bits := by
  have fold : ∀ (L : List Int) (p q : Grid → Int → Int) (v : Bool) (g : Grid),
      let r := L.foldl (fun g i => g.fillGuide (p g i) (q g i) v) g
      r.xs = g.xs ∧ r.ys = g.ys ∧ r.zs = g.zs ∧ r.zDir = g.zDir ∧ r.bits = g.bits := by
    intro L p q v
    induction L with
    | nil => intro g; exact ⟨rfl, rfl, rfl, rfl, rfl⟩
    | cons i L ih =>
      intro g
      obtain ⟨h1, h2, h3, h4, h5⟩ := ih (g.fillGuide (p g i) (q g i) v)
      exact ⟨h1, h2, h3, h4, h5⟩
  cases op <;> try exact ⟨rfl, rfl, rfl, rfl, rfl⟩
  all_goals
    simp only [Grid.lstep, Grid.setGuide, Grid.resetGuide, Grid.fillGuideRect]
    split
    · exact ⟨rfl, rfl, rfl, rfl, rfl⟩
    · split
      · exact fold _ (fun g i => g.idx ⟨_, i, _⟩) (fun g i => g.idx ⟨_, i, _⟩) _ g
      · exact fold _ (fun g i => g.idx ⟨i, _, _⟩) (fun g i => g.idx ⟨i, _, _⟩) _ g

theorem lstep_on (g : Grid) (op : LOp) (n : MIdx) : (g.lstep op).On n ↔ g.On n := by
  obtain ⟨h1, h2, h3, _, _⟩ := lstep_dims g op
  simp only [Grid.On, h1, h2, h3]

theorem setFlag_idx (g : Grid) (f : Int → Bool) (n m : MIdx) (b : Bool) (hn : g.On n) (hm : g.On m) :
    Grid.setFlag f (g.idx n) b (g.idx m) = if m = n then b else f (g.idx m) := by
  simp only [Grid.setFlag]
  by_cases h : m = n
  · subst h; simp
  · have : g.idx m ≠ g.idx n := fun e => h (idx_inj g ((on_iff _ _).1 hm) ((on_iff _ _).1 hn) e)
    simp [h, this]

theorem getPrev_setPrev (g : Grid) (n m : MIdx) (d : Dir) (hn : g.On n) (hm : g.On m) :
    (g.setPrevDir n d).getPrevDir m = if m = n then d else g.getPrevDir m := by
  have hidx : ∀ k, (g.setPrevDir n d).idx k = g.idx k := fun _ => rfl
  by_cases h : m = n
  · subst h
    simp only [if_true, Grid.getPrevDir, hidx]
    simp only [Grid.setPrevDir, Grid.setFlag]
    have e1 : ¬ (3 * g.idx m = 3 * g.idx m + 1) := by omega
    have e2 : ¬ (3 * g.idx m = 3 * g.idx m + 2) := by omega
    have e3 : ¬ (3 * g.idx m + 1 = 3 * g.idx m + 2) := by omega
    simp only [e1, e2, e3, if_false, if_true]
    cases d <;> decide
  · have hne : g.idx m ≠ g.idx n := fun e => h (idx_inj g ((on_iff _ _).1 hm) ((on_iff _ _).1 hn) e)
    simp only [h, if_false, Grid.getPrevDir, hidx]
    simp only [Grid.setPrevDir, Grid.setFlag]
    have e : ∀ a b : Int, 0 ≤ a → a ≤ 2 → 0 ≤ b → b ≤ 2 → ¬ (3 * g.idx m + a = 3 * g.idx n + b) := by
      intro a b _ _ _ _; omega
    have f00 : ¬ (3 * g.idx m = 3 * g.idx n) := by omega
    have f01 : ¬ (3 * g.idx m = 3 * g.idx n + 1) := by omega
    have f02 : ¬ (3 * g.idx m = 3 * g.idx n + 2) := by omega
    have f10 : ¬ (3 * g.idx m + 1 = 3 * g.idx n) := by omega
    have f11 : ¬ (3 * g.idx m + 1 = 3 * g.idx n + 1) := by omega
    have f12 : ¬ (3 * g.idx m + 1 = 3 * g.idx n + 2) := by omega
    have f20 : ¬ (3 * g.idx m + 2 = 3 * g.idx n) := by omega
    have f21 : ¬ (3 * g.idx m + 2 = 3 * g.idx n + 1) := by omega
    have f22 : ¬ (3 * g.idx m + 2 = 3 * g.idx n + 2) := by omega
    simp only [f00, f01, f02, f10, f11, f12, f20, f21, f22, if_false]

theorem mem_rangeIncl (a b i : Int) : i ∈ Grid.rangeIncl a b ↔ a ≤ i ∧ i ≤ b := by
  simp only [Grid.rangeIncl, List.mem_map, List.mem_range]
  constructor
  · rintro ⟨k, h, rfl⟩; omega
  · intro h; exact ⟨(i - a).toNat, by omega, by omega⟩

theorem fold_fill (lo hi : Int → MIdx) (v : Bool) (L : List Int) : ∀ (g : Grid) (j : Int),
    (L.foldl (fun g i => g.fillGuide (g.idx (lo i)) (g.idx (hi i)) v) g).guides j =
      if ∃ i ∈ L, g.idx (lo i) ≤ j ∧ j ≤ g.idx (hi i) then v else g.guides j := by
  induction L with
  | nil => intro g j; simp
  | cons i L ih =>
    intro g j
    rw [List.foldl_cons, ih]
    have hidx : ∀ k, (g.fillGuide (g.idx (lo i)) (g.idx (hi i)) v).idx k = g.idx k := fun _ => rfl
    simp only [hidx]
    by_cases h : ∃ i ∈ L, g.idx (lo i) ≤ j ∧ j ≤ g.idx (hi i)
    · have h' : ∃ i' ∈ i :: L, g.idx (lo i') ≤ j ∧ j ≤ g.idx (hi i') := by
        obtain ⟨i', h1, h2⟩ := h; exact ⟨i', by simp [h1], h2⟩
      rw [if_pos h, if_pos h']
    · rw [if_neg h]
      by_cases h0 : g.idx (lo i) ≤ j ∧ j ≤ g.idx (hi i)
      · have h' : ∃ i' ∈ i :: L, g.idx (lo i') ≤ j ∧ j ≤ g.idx (hi i') := ⟨i, by simp, h0⟩
        rw [if_pos h']
        have : g.idx (lo i) ≤ j ∧ j < g.idx (hi i) + 1 := by omega
        simp only [Grid.fillGuide, this, and_self, if_true]
      · have h' : ¬ ∃ i' ∈ i :: L, g.idx (lo i') ≤ j ∧ j ≤ g.idx (hi i') := by
          rintro ⟨i', h1, h2⟩
          rcases List.mem_cons.1 h1 with rfl | h1
          · exact h0 h2
          · exact h ⟨i', h1, h2⟩
        rw [if_neg h']
        have : ¬ (g.idx (lo i) ≤ j ∧ j < g.idx (hi i) + 1) := by omega
        simp only [Grid.fillGuide, this, if_false]

theorem fillRect_guides (g : Grid) (x1 y1 x2 y2 z : Int) (v : Bool) (m : MIdx)
    (h1 : g.On ⟨x1, y1, z⟩) (h2 : g.On ⟨x2, y2, z⟩) (hm : g.On m) :
    (g.fillGuideRect x1 y1 x2 y2 z v).guides (g.idx m) =
      if x1 ≤ m.x ∧ m.x ≤ x2 ∧ y1 ≤ m.y ∧ m.y ≤ y2 ∧ m.z = z then v else g.guides (g.idx m) := by
  simp only [Grid.fillGuideRect]
  by_cases he : x2 < x1 ∨ y2 < y1
  · rw [if_pos he, if_neg (by omega)]
  rw [if_neg he]
  have hm' := (on_iff _ _).1 hm
  by_cases hz : g.zDir z = true
  · rw [if_pos hz, fold_fill (fun i => ⟨x1, i, z⟩) (fun i => ⟨x2, i, z⟩)]
    congr 1
    apply propext
    simp only [mem_rangeIncl]
    constructor
    · rintro ⟨i, hi, ha, hb⟩
      have eq : g.idx ⟨g.idx m - (i * g.X + z * g.X * g.Y), i, z⟩ = g.idx m := by
        simp only [Grid.idx, hz, if_true]; omega
      have ha : x1 + i * g.X + z * g.X * g.Y ≤ g.idx m := by
        have e : g.idx ⟨x1, i, z⟩ = x1 + i * g.X + z * g.X * g.Y := by simp only [Grid.idx, hz, if_true]
        rw [← e]; exact ha
      have hb : g.idx m ≤ x2 + i * g.X + z * g.X * g.Y := by
        have e : g.idx ⟨x2, i, z⟩ = x2 + i * g.X + z * g.X * g.Y := by simp only [Grid.idx, hz, if_true]
        rw [← e]; exact hb
      have hv : g.On ⟨g.idx m - (i * g.X + z * g.X * g.Y), i, z⟩ := by
        simp only [Grid.On] at h1 h2 ⊢
        refine ⟨?_, ?_, ?_, ?_, ?_, ?_⟩ <;> omega
      have := idx_inj g ((on_iff _ _).1 hv) hm' eq
      have q1 := congrArg MIdx.x this
      have q2 := congrArg MIdx.y this
      have q3 := congrArg MIdx.z this
      simp only at q1 q2 q3
      omega
    · rintro ⟨a1, a2, a3, a4, rfl⟩
      refine ⟨m.y, ⟨a3, a4⟩, ?_, ?_⟩ <;> simp only [Grid.idx, hz, if_true] <;> omega
  · rw [if_neg hz, fold_fill (fun i => ⟨i, y1, z⟩) (fun i => ⟨i, y2, z⟩)]
    congr 1
    apply propext
    simp only [mem_rangeIncl]
    have hz' : g.zDir z = false := by simpa using hz
    constructor
    · rintro ⟨i, hi, ha, hb⟩
      have eq : g.idx ⟨i, g.idx m - (i * g.Y + z * g.X * g.Y), z⟩ = g.idx m := by
        simp only [Grid.idx, hz', Bool.false_eq_true, if_false]; omega
      have ha : y1 + i * g.Y + z * g.X * g.Y ≤ g.idx m := by
        have e : g.idx ⟨i, y1, z⟩ = y1 + i * g.Y + z * g.X * g.Y := by
          simp only [Grid.idx, hz', Bool.false_eq_true, if_false]
        rw [← e]; exact ha
      have hb : g.idx m ≤ y2 + i * g.Y + z * g.X * g.Y := by
        have e : g.idx ⟨i, y2, z⟩ = y2 + i * g.Y + z * g.X * g.Y := by
          simp only [Grid.idx, hz', Bool.false_eq_true, if_false]
        rw [← e]; exact hb
      have hv : g.On ⟨i, g.idx m - (i * g.Y + z * g.X * g.Y), z⟩ := by
        simp only [Grid.On] at h1 h2 ⊢
        refine ⟨?_, ?_, ?_, ?_, ?_, ?_⟩ <;> omega
      have := idx_inj g ((on_iff _ _).1 hv) hm' eq
      have q1 := congrArg MIdx.x this
      have q2 := congrArg MIdx.y this
      have q3 := congrArg MIdx.z this
      simp only at q1 q2 q3
      omega
    · rintro ⟨a1, a2, a3, a4, rfl⟩
      refine ⟨m.x, ⟨a1, a2⟩, ?_, ?_⟩ <;> simp only [Grid.idx, hz', Bool.false_eq_true, if_false] <;> omega

theorem fold_fill_other (lo hi : Int → MIdx) (v : Bool) (L : List Int) : ∀ (g : Grid),
    (L.foldl (fun g i => g.fillGuide (g.idx (lo i)) (g.idx (hi i)) v) g).srcs = g.srcs ∧
    (L.foldl (fun g i => g.fillGuide (g.idx (lo i)) (g.idx (hi i)) v) g).dsts = g.dsts ∧
    (L.foldl (fun g i => g.fillGuide (g.idx (lo i)) (g.idx (hi i)) v) g).prevs = g.prevs := by
  induction L with
  | nil => intro g; exact ⟨rfl, rfl, rfl⟩
  | cons i L ih => intro g; exact ih (g.fillGuide (g.idx (lo i)) (g.idx (hi i)) v)

theorem fillRect_other (g : Grid) (x1 y1 x2 y2 z : Int) (v : Bool) :
    (g.fillGuideRect x1 y1 x2 y2 z v).srcs = g.srcs ∧
    (g.fillGuideRect x1 y1 x2 y2 z v).dsts = g.dsts ∧
    (g.fillGuideRect x1 y1 x2 y2 z v).prevs = g.prevs := by
  simp only [Grid.fillGuideRect]
  split
  · exact ⟨rfl, rfl, rfl⟩
  · split
    · exact fold_fill_other (fun i => ⟨x1, i, z⟩) (fun i => ⟨x2, i, z⟩) v _ g
    · exact fold_fill_other (fun i => ⟨i, y1, z⟩) (fun i => ⟨i, y2, z⟩) v _ g

theorem lstep_idx (g : Grid) (op : LOp) (n : MIdx) : (g.lstep op).idx n = g.idx n := by
  obtain ⟨h1, h2, h3, h4, _⟩ := lstep_dims g op
  simp only [Grid.idx, Grid.X, Grid.Y, h1, h2, h4]

/-- C11, one call: every label query then answers what the labels should be. -/
theorem c11_step (g : Grid) (l : Labels) (op : LOp) (hs : g.Shows l) (hl : op.Legal g) :
    (g.lstep op).Shows (l.step op) := by
  intro m hm
  rw [lstep_on] at hm
  obtain ⟨s1, s2, s3, s4⟩ := hs m hm
  have guideAt : ∀ k, g.On k → g.guides (g.idx k) = l.guide k := by
    intro k hk
    have := (hs k hk).2.2.2 .UNKNOWN (by
      have : k.nbr .UNKNOWN = k := by simp [MIdx.nbr, Dir.delta]
      rw [this]; exact hk)
    have e : k.nbr .UNKNOWN = k := by simp [MIdx.nbr, Dir.delta]
    rw [e] at this
    exact this
  have hG : ∀ d, g.On (m.nbr d) → (g.lstep op).hasGuide m d = (g.lstep op).guides (g.idx (m.nbr d)) := by
    intro d _
    simp only [Grid.hasGuide, nbr_reverse, lstep_idx]
  cases op with
  | setSrc n =>
    refine ⟨?_, s2, s3, fun d hd => ?_⟩
    · exact (setFlag_idx g g.srcs n m true hl hm).trans (by simp only [Labels.step]; rw [← s1]; rfl)
    · exact s4 d ((lstep_on g (.setSrc n) _).1 hd)
  | resetSrc n =>
    refine ⟨?_, s2, s3, fun d hd => ?_⟩
    · exact (setFlag_idx g g.srcs n m false hl hm).trans (by simp only [Labels.step]; rw [← s1]; rfl)
    · exact s4 d ((lstep_on g (.resetSrc n) _).1 hd)
  | setDst n =>
    refine ⟨s1, ?_, s3, fun d hd => ?_⟩
    · exact (setFlag_idx g g.dsts n m true hl hm).trans (by simp only [Labels.step]; rw [← s2]; rfl)
    · exact s4 d ((lstep_on g (.setDst n) _).1 hd)
  | resetDst n =>
    refine ⟨s1, ?_, s3, fun d hd => ?_⟩
    · exact (setFlag_idx g g.dsts n m false hl hm).trans (by simp only [Labels.step]; rw [← s2]; rfl)
    · exact s4 d ((lstep_on g (.resetDst n) _).1 hd)
  | setPrev n e =>
    refine ⟨s1, s2, ?_, fun d hd => ?_⟩
    · exact (getPrev_setPrev g n m e hl hm).trans (by simp only [Labels.step]; rw [← s3])
    · exact s4 d ((lstep_on g (.setPrev n e) _).1 hd)
  | setGuide x1 y1 x2 y2 z =>
    obtain ⟨o1, o2, o3⟩ := fillRect_other g x1 y1 x2 y2 z true
    refine ⟨?_, ?_, ?_, fun d hd => ?_⟩
    · rw [Grid.isSrc, lstep_idx]; exact (congrFun o1 _).trans s1
    · rw [Grid.isDst, lstep_idx]; exact (congrFun o2 _).trans s2
    · rw [Grid.getPrevDir, lstep_idx]; simp only [Grid.lstep, Grid.setGuide, o3]; exact s3
    · rw [lstep_on] at hd
      rw [hG d hd]
      refine (fillRect_guides g x1 y1 x2 y2 z true _ hl.1 hl.2 hd).trans ?_
      rw [guideAt _ hd]; rfl
  | resetGuide x1 y1 x2 y2 z =>
    obtain ⟨o1, o2, o3⟩ := fillRect_other g x1 y1 x2 y2 z false
    refine ⟨?_, ?_, ?_, fun d hd => ?_⟩
    · rw [Grid.isSrc, lstep_idx]; exact (congrFun o1 _).trans s1
    · rw [Grid.isDst, lstep_idx]; exact (congrFun o2 _).trans s2
    · rw [Grid.getPrevDir, lstep_idx]; simp only [Grid.lstep, Grid.resetGuide, o3]; exact s3
    · rw [lstep_on] at hd
      rw [hG d hd]
      refine (fillRect_guides g x1 y1 x2 y2 z false _ hl.1 hl.2 hd).trans ?_
      rw [guideAt _ hd]; rfl
  | resetStatus =>
    refine ⟨rfl, rfl, rfl, fun d hd => ?_⟩
    exact s4 d ((lstep_on g .resetStatus _).1 hd)

/-- C11: after any history of legal label calls, every query answers the last value written. -/
theorem c11_labels_read_back (ops : List LOp) : ∀ (g : Grid) (l : Labels), g.Shows l →
    (∀ op ∈ ops, op.Legal g) → (ops.foldl Grid.lstep g).Shows (ops.foldl Labels.step l) := by
  induction ops with
  | nil => intro g l h _; exact h
  | cons op ops ih =>
    intro g l h hl
    apply ih (g.lstep op) (l.step op) (c11_step g l op h (hl op (by simp)))
    intro o ho
    have := hl o (by simp [ho])
    cases o <;> simp only [LOp.Legal, lstep_on] at * <;> exact this

/-- C11: label calls do not touch the edge and cost attributes. -/
theorem c11_words_untouched (g : Grid) (op : LOp) (n : MIdx) (a : Attr) :
    (g.lstep op).attr n a = g.attr n a := by
  rw [attr_eq, attr_eq, lstep_idx, (lstep_dims g op).2.2.2.2]

example : demoGrid.Shows ⟨fun _ => false, fun _ => false, fun _ => false, fun _ => .UNKNOWN⟩ ∧
    LOp.Legal demoGrid (.setGuide 1 0 2 1 1) ∧ LOp.Legal demoGrid (.setPrev ⟨3, 2, 1⟩ .W) := by
  refine ⟨?_, ?_, ?_⟩
  · intro m _; exact ⟨rfl, rfl, rfl, fun _ _ => rfl⟩
  · simp [LOp.Legal, Grid.On, demoGrid]
  · simp [LOp.Legal, Grid.On, demoGrid]

end TR
