import Verif.Cost.Planar
/-! C73, C74: costs of vias near a shape, end-of-line costs. -/
namespace TR

theorem mk4_eq {a b c d : Int} (h1 : a ≤ c) (h2 : b ≤ d) : Box.mk4 a b c d = ⟨⟨a, b⟩, ⟨c, d⟩⟩ := by
  unfold Box.mk4
  rw [if_neg (by omega), if_neg (by omega), if_neg (by omega), if_neg (by omega)]

/-- the test boxes of the code are the zones of the ends of line -/
theorem eolBoxes_eq {rules : List EolRule} (hr : EolRulesOk rules) {m : Box} (hm : m.Proper) :
    eolBoxes rules m = rules.flatMap fun r => ([CSide.up, .down, .right, .left].filter fun s => decide (EndSide r m s)).map (eolZone r m) := by
  unfold eolBoxes
  have : ∀ r ∈ rules, _ := fun r h => hr r h
  clear hr
  induction rules with
  | nil => rfl
  | cons r rules ih =>
    obtain ⟨h1, h2⟩ := this r List.mem_cons_self
    simp only [List.flatMap_cons]
    rw [ih (fun r' h => this r' (List.mem_cons_of_mem _ h))]
    congr 1
    unfold Box.Proper at hm
    rw [mk4_eq (by omega) (by omega), mk4_eq (by omega) (by omega), mk4_eq (by omega) (by omega), mk4_eq (by omega) (by omega)]
    by_cases a : m.right - m.left < r.width <;> by_cases b : m.top - m.bottom < r.width <;>
      simp [EndSide, a, b, eolZone]

theorem countP_zones (r : EolRule) (m o : Box) (P : Box → Bool) (hP : ∀ b, P b = decide (Invades b o)) :
    (([CSide.up, .down, .right, .left].filter fun s => decide (EndSide r m s)).map (eolZone r m)).countP P =
      [CSide.up, .down, .right, .left].countP fun s => decide (EolClose r m o s) := by
  rw [List.countP_map, List.countP_filter]
  congr 1
  funext s
  simp only [Function.comp, hP, EolClose, ← Bool.decide_and]
  congr 1
  exact propext And.comm

theorem eolBoxes_countP {rules : List EolRule} (hr : EolRulesOk rules) {m : Box} (hm : m.Proper) (o : Box) (P : Box → Bool)
    (hP : ∀ b, P b = decide (Invades b o)) : (eolBoxes rules m).countP P = eolHits rules m o := by
  rw [eolBoxes_eq hr hm, List.countP_flatMap]
  unfold eolHits
  congr 1
  apply List.map_congr_left
  intro r _
  simp only [Function.comp]
  exact countP_zones r m o P hP

theorem count_flatMap_if {α : Type} (l : List α) (P : α → Bool) (t : CTgt) :
    (l.flatMap fun a => if P a then [t] else []).count t = l.countP P := by
  induction l with
  | nil => rfl
  | cons a l ih =>
    rw [List.flatMap_cons, List.count_append, ih, List.countP_cons, count_if]
    split <;> omega

theorem viaEol_count (T : CTech) (l : Int) (box tmp : Box) (t : CTgt) (hr : EolRulesOk (T.eol l)) (hm : tmp.Proper) :
    (viaEol T l box tmp t).count t = eolHits (T.eol l) tmp box := by
  unfold viaEol
  rw [count_flatMap_if]
  exact eolBoxes_countP hr hm box _ (fun b => by
    rw [Bool.eq_iff_iff, overlaps_invades, decide_eq_true_iff])

/-- some end of line is hit -/
theorem eolHits_pos {rules : List EolRule} {m o : Box} (h : 0 < eolHits rules m o) : ∃ r ∈ rules, ∃ s, EolClose r m o s := by
  unfold eolHits at h
  induction rules with
  | nil => simp at h
  | cons r rules ih =>
    rw [List.map_cons, List.sum_cons] at h
    by_cases h0 : 0 < (rules.map fun r => [CSide.up, .down, .right, .left].countP fun s => decide (EolClose r m o s)).sum
    · obtain ⟨r', h1, h2⟩ := ih h0
      exact ⟨r', List.mem_cons_of_mem _ h1, h2⟩
    · have : 0 < [CSide.up, .down, .right, .left].countP fun s => decide (EolClose r m o s) := by omega
      rw [List.countP_pos_iff] at this
      obtain ⟨s, _, hs⟩ := this
      exact ⟨r, List.mem_cons_self, s, of_decide_eq_true hs⟩

theorem eolHits_zero {rules : List EolRule} {m o : Box} (h : eolHits rules m o = 0) : ∀ r ∈ rules, ∀ s, ¬ EolClose r m o s := by
  intro r hr s hc
  unfold eolHits at h
  induction rules with
  | nil => cases hr
  | cons r' rules ih =>
    rw [List.map_cons, List.sum_cons] at h
    rcases List.mem_cons.1 hr with rfl | hr
    · have h0 : ([CSide.up, .down, .right, .left].countP fun s => decide (EolClose r m o s)) = 0 := by omega
      rw [List.countP_eq_zero] at h0
      refine h0 s ?_ (decide_eq_true hc)
      cases s <;> simp
    · exact ih (by omega) hr

theorem eolBloatX_ge (rules : List EolRule) (vb : Box) : 0 ≤ eolBloatX rules vb ∧
    ∀ r ∈ rules, vb.top - vb.bottom < r.width → r.space ≤ eolBloatX rules vb := by
  unfold eolBloatX
  have gen : ∀ (rules : List EolRule) (a : Int), a ≤ rules.foldl (fun a r => if vb.top - vb.bottom < r.width then max a r.space else a) a ∧
      ∀ r ∈ rules, vb.top - vb.bottom < r.width → r.space ≤ rules.foldl (fun a r => if vb.top - vb.bottom < r.width then max a r.space else a) a := by
    intro rules
    induction rules with
    | nil => intro a; exact ⟨Int.le_refl _, by simp⟩
    | cons r rules ih =>
      intro a
      rw [List.foldl_cons]
      have h := ih (if vb.top - vb.bottom < r.width then max a r.space else a)
      refine ⟨Int.le_trans (by split <;> omega) h.1, ?_⟩
      intro r' hr' hw
      rcases List.mem_cons.1 hr' with rfl | hr'
      · refine Int.le_trans ?_ h.1
        rw [if_pos hw]; omega
      · exact h.2 r' hr' hw
  exact gen rules 0

theorem eolBloatY_ge (rules : List EolRule) (vb : Box) : 0 ≤ eolBloatY rules vb ∧
    ∀ r ∈ rules, vb.right - vb.left < r.width → r.space ≤ eolBloatY rules vb := by
  unfold eolBloatY
  have gen : ∀ (rules : List EolRule) (a : Int), a ≤ rules.foldl (fun a r => if vb.right - vb.left < r.width then max a r.space else a) a ∧
      ∀ r ∈ rules, vb.right - vb.left < r.width → r.space ≤ rules.foldl (fun a r => if vb.right - vb.left < r.width then max a r.space else a) a := by
    intro rules
    induction rules with
    | nil => intro a; exact ⟨Int.le_refl _, by simp⟩
    | cons r rules ih =>
      intro a
      rw [List.foldl_cons]
      have h := ih (if vb.right - vb.left < r.width then max a r.space else a)
      refine ⟨Int.le_trans (by split <;> omega) h.1, ?_⟩
      intro r' hr' hw
      rcases List.mem_cons.1 hr' with rfl | hr'
      · refine Int.le_trans ?_ h.1
        rw [if_pos hw]; omega
      · exact h.2 r' hr' hw
  exact gen rules 0

theorem fatVia_iff (T : CTech) (l : Int) (vb : Box) : fatVia T l vb = true ↔ Fat T l vb := by
  unfold fatVia Fat
  cases T.horz l <;> simp

theorem viaSpc_iff (T : CTech) (l : Int) (box vb : Box) (blk : Bool) (p d : Int) :
    viaSpc T l box vb blk p = some d ↔
      LayerSpacing T l (blk = true ∧ T.useMinObs = true ∧ ¬ Fat T l vb) box.width vb.width p d := by
  unfold viaSpc LayerSpacing
  cases hr : T.spc l with
  | none => simp
  | some r =>
    have hc : ((blk && T.useMinObs && !fatVia T l vb) = true) ↔ (blk = true ∧ T.useMinObs = true ∧ ¬ Fat T l vb) := by
      rw [← fatVia_iff]; simp [and_assoc]
    simp only [Option.bind_some]
    by_cases h : (blk && T.useMinObs && !fatVia T l vb) = true
    · rw [if_pos h]
      have h' := hc.1 h
      constructor
      · intro e; cases e; exact ⟨r, rfl, fun _ => rfl, fun hn => absurd h' hn⟩
      · rintro ⟨r', hr', h1, _⟩; cases hr'; rw [h1 h']
    · rw [if_neg h]
      have h' := fun x => h (hc.2 x)
      constructor
      · intro e; exact ⟨r, rfl, fun hn => absurd hn h', fun _ => e⟩
      · rintro ⟨r', hr', _, h2⟩; cases hr'; exact h2 h'

/-- C73: the length used for the minimum area is the least multiple of the manufacturing grid that gives a wire of default width that area -/
theorem c73_patch_length (T : CTech) (l : Int) (vb : Box) (hf : ¬ Fat T l vb) (hw : 0 < T.width l) (hg : 0 < T.grid) :
    IsPatchLen T l (patchLen T l vb) := by
  unfold patchLen IsPatchLen
  rw [if_neg (fun h => hf ((fatVia_iff T l vb).1 h))]
  have hn : 0 < T.width l * T.grid := Int.mul_pos hw hg
  generalize T.minArea l = A
  generalize hN : T.width l * T.grid = N at *
  have e : ∀ k : Int, k * T.grid * T.width l = k * N := by
    intro k; rw [Int.mul_assoc, Int.mul_comm T.grid, hN]
  refine ⟨⟨_, rfl⟩, ?_, ?_⟩
  · rw [e]
    have := Int.ediv_mul_le (-A) (b := N) (by omega)
    rw [Int.neg_mul]; omega
  · intro k hk
    rw [e] at hk
    refine Int.mul_le_mul_of_nonneg_right ?_ (by omega)
    have : -k ≤ -A / N := by
      rw [Int.le_ediv_iff_mul_le hn, Int.neg_mul]; omega
    omega

/-- the run length of the code is the assumed one -/
theorem viaPrl_assumed (T : CTech) (l : Int) (box vb tmp : Box) (grows : Bool) :
    AssumedRun T l vb tmp box (patchLen T l vb) grows (viaPrl T l box vb tmp grows) := by
  have hf := fatVia_iff T l vb
  unfold AssumedRun viaPrl runLen
  rw [cgapX_eq, cgapY_eq]
  generalize sharedX box tmp = sx
  generalize sharedY box tmp = sy
  refine ⟨?_, ?_⟩
  · intro h; subst h; simp
  · intro h
    subst h
    simp only [if_true, Int.neg_neg]
    refine ⟨?_, ?_, ?_⟩
    · intro h1 h2
      rw [if_neg (by omega), if_neg (by omega)]
    · intro h1 h2
      rw [if_pos (by omega)]
      unfold alongLen
      cases hv : fatVia T l vb <;> rw [hv] at hf <;> cases hh : T.horz l <;> by_cases hfat : Fat T l vb <;> simp [hfat] at hf ⊢
    · intro h1 h2
      rw [if_neg (by omega), if_pos (by omega)]
      unfold alongLen
      cases hv : fatVia T l vb <;> rw [hv] at hf <;> cases hh : T.horz l <;> by_cases hfat : Fat T l vb <;> simp [hfat] at hf ⊢

/-- the run length that the window is made for -/
def windowRun (T : CTech) (l : Int) (box vb : Box) (grows : Bool) : Int :=
  if grows then viaLenMar T l vb else min box.length (viaLenMar T l vb)

theorem patchLen_fat (T : CTech) (l : Int) (vb : Box) (h : fatVia T l vb = true) : patchLen T l vb = 0 := by
  unfold patchLen; rw [if_pos h]

theorem viaPrl_le (T : CTech) (l : Int) (box vb sb : Box) (p : Point) (hvb : vb.Proper) (hin : sb.Inside vb) (grows : Bool) :
    viaPrl T l box vb (sb.at p) grows ≤ windowRun T l box vb grows := by
  unfold viaPrl windowRun
  rw [cgapX_eq, cgapY_eq]
  have e1 : sharedX box (sb.at p) ≤ min (box.right - box.left) (vb.right - vb.left) := by
    unfold sharedX Box.at; unfold Box.Inside at hin
    simp only [Box.left, Box.right, Box.bottom, Box.top] at *; omega
  have e2 : sharedY box (sb.at p) ≤ min (box.top - box.bottom) (vb.top - vb.bottom) := by
    unfold sharedY Box.at; unfold Box.Inside at hin
    simp only [Box.left, Box.right, Box.bottom, Box.top] at *; omega
  generalize sharedX box (sb.at p) = sx at *
  generalize sharedY box (sb.at p) = sy at *
  have hm : vb.length ≤ viaLenMar T l vb ∧ (fatVia T l vb = false → patchLen T l vb ≤ viaLenMar T l vb) := by
    unfold viaLenMar
    cases fatVia T l vb <;> simp <;> omega
  have hl : vb.right - vb.left ≤ vb.length ∧ vb.top - vb.bottom ≤ vb.length ∧ box.right - box.left ≤ box.length ∧
      box.top - box.bottom ≤ box.length := by unfold Box.length; omega
  unfold Box.Proper at hvb
  simp only [Int.neg_neg]
  cases grows
  · simp only [Bool.false_eq_true, if_false]
    omega
  · simp only [if_true]
    split
    · split
      · rename_i hh
        simp only [Bool.and_eq_true, Bool.not_eq_true'] at hh
        have := hm.2 hh.2
        omega
      · omega
    · split
      · split
        · rename_i hh
          simp only [Bool.and_eq_true, Bool.not_eq_true'] at hh
          have := hm.2 hh.2
          omega
        · omega
      · omega

theorem layerSpacing_mono {T : CTech} {l : Int} (hm : SpcMono T l) {P : Prop} {w1 w2 p q d e : Int} (hpq : p ≤ q)
    (h1 : LayerSpacing T l P w1 w2 p d) (h2 : LayerSpacing T l P w1 w2 q e) : d ≤ e := by
  obtain ⟨r, a, b, c⟩ := h1
  obtain ⟨r', a', b', c'⟩ := h2
  rw [a] at a'; cases a'
  by_cases h : P
  · rw [b h, b' h]; exact Int.le_refl _
  · exact hm r a _ _ _ _ _ _ hpq (c h) (c' h)

end TR
