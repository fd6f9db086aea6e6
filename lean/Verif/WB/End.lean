import Verif.WB.Merge
/-! # Worker end: properties C27 and C28; loading and removal agree: property C56 -/
namespace TR

/-! ## C27 -/

/-- the number of violations a worker starts from: those stored that touch its check box, without recheck requests -/
def startViolations (box : Box) (ms : List DMarker) : Nat := (ms.filter (fun m => box.overlaps m.box && !m.recheck)).length

theorem initMarkers_fst (C : WorkerCfg) (ms : List DMarker) :
    (initMarkers C ms).1 = if C.iter ≤ 1 ∧ startViolations C.drcBox ms = 0 then 1 else startViolations C.drcBox ms := by
  unfold initMarkers startViolations
  simp only [List.filter_filter, Bool.and_comm]

/-- C27: in a repair pass (mode 0, checks on) the design changes only if the result has at most as many violations as the
worker started from; in the first two iterations a start without violations counts as one. -/
theorem c27_no_worse {E : DesignEnv} {C : WorkerCfg} {ms0 : List DMarker} {W : WorkerResult} {D : DesignSt}
    (hd : C.enableDRC = true) (hm : C.ripupMode = 0) (hc : workerEnd E C ms0 W D ≠ D) :
    W.best.length ≤ max (startViolations C.drcBox ms0) (if C.iter ≤ 1 then 1 else 0) := by
  unfold workerEnd at hc
  simp only at hc
  split at hc
  · rename_i h
    have h3 : ¬ W.best.length > (initMarkers C ms0).1 := by
      intro hgt
      unfold writesBack at h
      simp [hd, hm, hgt] at h
    rw [initMarkers_fst] at h3
    by_cases hi : C.iter ≤ 1 <;> by_cases h0 : startViolations C.drcBox ms0 = 0 <;> simp [hi, h0] at h3 ⊢ <;> omega
  · exact absurd rfl hc

/-- C27: in ripup mode 1, from the second iteration on, at most five times as many. -/
theorem c27_mode_one {E : DesignEnv} {C : WorkerCfg} {ms0 : List DMarker} {W : WorkerResult} {D : DesignSt}
    (hd : C.enableDRC = true) (hm : C.ripupMode = 1) (hi : 1 ≤ C.iter) (hc : workerEnd E C ms0 W D ≠ D) :
    W.best.length ≤ 5 * max (startViolations C.drcBox ms0) (if C.iter ≤ 1 then 1 else 0) := by
  unfold workerEnd at hc
  simp only at hc
  split at hc
  · rename_i h
    have h3 : ¬ W.best.length > 5 * (initMarkers C ms0).1 := by
      intro hgt
      have hi0 : C.iter ≠ 0 := by omega
      unfold writesBack at h
      simp [hd, hm, hi0, hgt] at h
    rw [initMarkers_fst] at h3
    by_cases hi : C.iter ≤ 1 <;> by_cases h0 : startViolations C.drcBox ms0 = 0 <;> simp [hi, h0] at h3 ⊢ <;> omega
  · exact absurd rfl hc

/-- C27: from iteration 2 on, a worker whose check box no stored violation touches leaves the design unchanged,
whatever it computed. -/
theorem c27_nothing_to_repair {E : DesignEnv} {C : WorkerCfg} {ms0 : List DMarker} {W : WorkerResult} {D : DesignSt}
    (hd : C.enableDRC = true) (hi : 2 ≤ C.iter) (hn : ∀ m ∈ ms0, C.drcBox.overlaps m.box = false) : workerEnd E C ms0 W D = D := by
  have h0 : ms0.filter (fun m => C.drcBox.overlaps m.box) = [] := by
    rw [List.filter_eq_nil_iff]
    intro m hm
    rw [hn m hm]
    simp
  have : initMarkers C ms0 = (0, false) := by
    unfold initMarkers
    simp only [h0]
    simp
    omega
  unfold workerEnd
  rw [this]
  have h2 : C.iter ≠ 0 := by omega
  have hw : writesBack C 0 false W.best.length = false := by
    unfold writesBack
    simp [hd, h2]
  simp only [hw]
  rfl

theorem filter_split_length {α : Type} (f : α → Bool) (l : List α) : (l.filter (fun x => !f x)).length + (l.filter f).length = l.length := by
  induction l with
  | nil => rfl
  | cons a l ih => rw [List.filter_cons, List.filter_cons]; cases f a <;> simp <;> omega

theorem start_le (b : Box) (ms : List DMarker) : startViolations b ms ≤ (ms.filter (fun m => b.overlaps m.box)).length := by
  unfold startViolations
  induction ms with
  | nil => simp
  | cons a l ih =>
    rw [List.filter_cons, List.filter_cons]
    cases b.overlaps a.box <;> cases a.recheck <;> simp <;> omega

/-- C27: a repair worker (mode 0, iteration 2 or later) that started from the current violations never increases the
total number of stored violations. -/
theorem c27_total {E : DesignEnv} {C : WorkerCfg} {W : WorkerResult} {D : DesignSt}
    (hd : C.enableDRC = true) (hm : C.ripupMode = 0) (hi : 2 ≤ C.iter) : (workerEnd E C D.markers W D).markers.length ≤ D.markers.length := by
  by_cases hc : workerEnd E C D.markers W D = D
  · rw [hc]; exact Nat.le_refl _
  · have h1 := c27_no_worse hd hm hc
    have hi' : ¬ C.iter ≤ 1 := by omega
    rw [if_neg hi'] at h1
    unfold workerEnd at hc ⊢
    simp only at hc ⊢
    split at hc
    · rename_i h
      rw [if_pos h, hd]
      simp only [if_true]
      unfold replaceMarkers
      rw [List.length_append]
      have h2 := filter_split_length (fun m : DMarker => C.drcBox.overlaps m.box) D.markers
      have h3 := start_le C.drcBox D.markers
      have h4 := List.length_filter_le (fun m : DMarker => C.drcBox.overlaps m.box) W.best
      omega
    · exact absurd rfl hc

/-- C27: so it never increases over any sequence of such workers run one after the other. -/
theorem c27_sequence (E : DesignEnv) (ws : List (WorkerCfg × WorkerResult)) (D : DesignSt)
    (h : ∀ w ∈ ws, w.1.enableDRC = true ∧ w.1.ripupMode = 0 ∧ 2 ≤ w.1.iter) :
    (ws.foldl (fun D w => workerEnd E w.1 D.markers w.2 D) D).markers.length ≤ D.markers.length := by
  induction ws generalizing D with
  | nil => exact Nat.le_refl _
  | cons w ws ih =>
    obtain ⟨h1, h2, h3⟩ := h w (by simp)
    exact Nat.le_trans (ih _ (fun v hv => h v (by simp [hv]))) (c27_total h1 h2 h3)

/-- a violation, two configurations, and a design -/
def wbMk (x : Int) (d : Nat) : DMarker := ⟨2, ⟨⟨x, 0⟩, ⟨x + 10, 10⟩⟩, false, d⟩
def wbEnv : DesignEnv := ⟨fun _ => 10, 5, fun _ _ => false, id, id⟩
def wbCfg (x1 x2 : Int) : WorkerCfg := ⟨false, true, 3, 0, false, ⟨⟨x1, 0⟩, ⟨x2, 100⟩⟩, ⟨⟨x1 - 10, -10⟩, ⟨x2 + 10, 110⟩⟩⟩

/-- the hypotheses are met by a worker that replaces two violations by one -/
example : (workerEnd wbEnv (wbCfg 0 100) [wbMk 20 1, wbMk 50 2, wbMk 300 3] ⟨fun _ => true, [], [wbMk 30 4]⟩
    ⟨[], [wbMk 20 1, wbMk 50 2, wbMk 300 3]⟩).markers = [wbMk 300 3, wbMk 30 4] := by decide

/-- a result with more violations is dropped -/
example : (workerEnd wbEnv (wbCfg 0 100) [wbMk 20 1] ⟨fun _ => true, [], [wbMk 30 4, wbMk 40 5]⟩ ⟨[], [wbMk 20 1]⟩).markers = [wbMk 20 1] := by decide

/-- Two workers of one batch, both loaded before either is written back, that share a violation: each result is
acceptable on its own, yet the total grows from 1 to 2. So the assumption of `c27_total` that the worker started
from the current violations is needed. -/
theorem c27_shared_violation_grows :
    let D : DesignSt := ⟨[], [wbMk 100 1]⟩
    let D1 := workerEnd wbEnv (wbCfg 0 95) D.markers ⟨fun _ => true, [], [wbMk 20 2]⟩ D
    let D2 := workerEnd wbEnv (wbCfg 115 200) D.markers ⟨fun _ => true, [], [wbMk 180 3]⟩ D1
    D.markers.length = 1 ∧ D1.markers.length = 1 ∧ D2.markers.length = 2 := by decide

/-! ## C28 -/

/-- C28: after a write-back, with multiplicities, a violation touching the check box is stored as often as it is in the
worker's result, and any other as often as before. -/
theorem c28_store {E : DesignEnv} {C : WorkerCfg} {ms0 : List DMarker} {W : WorkerResult} {D : DesignSt} (hd : C.enableDRC = true)
    (hc : workerEnd E C ms0 W D ≠ D) (hb : C.drcBox.Proper) (m : DMarker) (hm : m.box.Proper) :
    (Touches C.drcBox m.box → (workerEnd E C ms0 W D).markers.count m = W.best.count m) ∧
    (¬ Touches C.drcBox m.box → (workerEnd E C ms0 W D).markers.count m = D.markers.count m) := by
  have hf : ∀ (f : DMarker → Bool) (l : List DMarker), (l.filter f).count m = if f m then l.count m else 0 := by
    intro f l
    induction l with
    | nil => simp
    | cons a l ih =>
      rw [List.filter_cons]
      by_cases e : a = m
      · subst e
        cases h : f a <;> simp [h, List.count_cons] at ih ⊢ <;> omega
      · cases h : f a <;> cases h' : f m <;> simp [h', List.count_cons, e] at ih ⊢ <;> omega
  unfold workerEnd at hc ⊢
  simp only at hc ⊢
  split at hc
  · rename_i h
    rw [if_pos h, hd]
    simp only [if_true]
    unfold replaceMarkers
    rw [List.count_append, hf, hf, ← overlaps_iff_touches hb hm]
    cases C.drcBox.overlaps m.box <;> simp
  · exact absurd rfl hc

/-- without a write-back the stored violations do not change; nor do they with checks off -/
theorem c28_no_checks {E : DesignEnv} {C : WorkerCfg} {ms0 : List DMarker} {W : WorkerResult} {D : DesignSt} (hd : C.enableDRC = false) :
    (workerEnd E C ms0 W D).markers = D.markers := by
  unfold workerEnd
  simp only [hd]
  split <;> rfl

/-! ## C56 -/

theorem containsPt_has {R : Box} {p : Point} : R.containsPt p = true ↔ R.Has p := by
  unfold Box.containsPt Box.Has
  simp [Box.left, Box.right, Box.bottom, Box.top]
  omega

/-- the loaded middle part -/
def midPart (R : Box) (w : Nat) (s : DSeg) : DSeg :=
  { s with b := ptAC s.horz (max (s.b.a s.horz) (R.loA s.horz)) (s.b.c s.horz)
           e := ptAC s.horz (min (s.e.a s.horz) (R.hiA s.horz)) (s.e.c s.horz)
           st := (fun st : SegStyle => if s.e.a s.horz > R.hiA s.horz then { st with endKind := EndKind.extend, endExt := w / 2 } else st)
             (if s.b.a s.horz < R.loA s.horz then { s.st with beginKind := .extend, beginExt := w / 2 } else s.st) }

theorem mid_on {R : Box} {w : Nat} {s : DSeg} (p : Point) : (midPart R w s).On p ↔ s.On p ∧ R.loA s.horz ≤ p.a s.horz ∧ p.a s.horz ≤ R.hiA s.horz := by
  rw [dseg_on_iff s.horz, dseg_on_iff s.horz]
  unfold midPart
  simp only [ptAC_a, ptAC_c]
  omega

theorem load_in {init : Bool} {R : Box} {w : Nat} {s : DSeg} (hR : R.Proper) (hs : s.Ok) (ht : trackIn init R s.horz (s.b.c s.horz) = true)
    (h1 : s.b.a s.horz ≤ R.hiA s.horz) (h2 : R.loA s.horz ≤ s.e.a s.horz) :
    loadSplit R (loadSeg init R w s) =
      ((if !(decide (s.b.a s.horz ≥ R.hiA s.horz) || decide (s.e.a s.horz ≤ R.loA s.horz)) then [midPart R w s] else []),
       (if s.b.a s.horz < R.loA s.horz then [lowPart R w s] else []) ++ (if s.e.a s.horz > R.hiA s.horz then [highPart R w s] else [])) := by
  have hp := (proper_iff s.horz R).1 hR
  obtain ⟨e1, e2, _⟩ := hs.ac
  have ht' := trackIn_iff.1 ht
  have hl : s.b.a s.horz < R.loA s.horz → (R.containsPt (lowPart R w s).b && R.containsPt (lowPart R w s).e) = false := by
    intro h
    rw [Bool.and_eq_false_iff]
    left
    rw [Bool.eq_false_iff, Ne, containsPt_has, has_iff s.horz]
    unfold lowPart
    simp only
    omega
  have hh : s.e.a s.horz > R.hiA s.horz → (R.containsPt (highPart R w s).b && R.containsPt (highPart R w s).e) = false := by
    intro h
    rw [Bool.and_eq_false_iff]
    right
    rw [Bool.eq_false_iff, Ne, containsPt_has, has_iff s.horz]
    unfold highPart
    simp only
    omega
  have hm : (!(decide (s.b.a s.horz ≥ R.hiA s.horz) || decide (s.e.a s.horz ≤ R.loA s.horz))) = true →
      (R.containsPt (midPart R w s).b && R.containsPt (midPart R w s).e) = true := by
    intro h
    simp at h
    rw [Bool.and_eq_true, containsPt_has, containsPt_has, has_iff s.horz, has_iff s.horz]
    unfold midPart
    simp only [ptAC_a, ptAC_c]
    omega
  unfold loadSplit loadSeg
  simp only [hs.straight, ht]
  rw [if_neg (by simp)]
  simp only [if_true]
  have d1 : decide (s.e.a s.horz < R.loA s.horz) = false := by simp; omega
  have d2 : decide (s.b.a s.horz > R.hiA s.horz) = false := by simp; omega
  simp only [d1, d2]
  simp only [Bool.false_eq_true, if_false, List.append_nil, List.filter_append, List.nil_append]
  change ((_ ++ List.filter _ (if _ then [midPart R w s] else []) ++ _ : List DSeg), (_ ++ List.filter _ (if _ then [midPart R w s] else []) ++ _ : List DSeg)) = _
  congr 1
  · have f1 : ∀ c : Prop, [Decidable c] → True := fun _ _ => trivial
    have g1 : List.filter (fun s => R.containsPt s.b && R.containsPt s.e) (if s.b.a s.horz < R.loA s.horz then [lowPart R w s] else []) = [] := by
      split
      · rw [List.filter_cons, hl (by assumption)]; rfl
      · rfl
    have g2 : List.filter (fun s => R.containsPt s.b && R.containsPt s.e) (if s.e.a s.horz > R.hiA s.horz then [highPart R w s] else []) = [] := by
      split
      · rw [List.filter_cons, hh (by assumption)]; rfl
      · rfl
    rw [g1, g2, List.nil_append, List.append_nil]
    split
    · rw [List.filter_cons, hm (by assumption)]; rfl
    · rfl
  · have g1 : List.filter (fun s => !(R.containsPt s.b && R.containsPt s.e)) (if s.b.a s.horz < R.loA s.horz then [lowPart R w s] else []) =
        (if s.b.a s.horz < R.loA s.horz then [lowPart R w s] else []) := by
      split
      · rw [List.filter_cons, hl (by assumption)]; rfl
      · rfl
    have g2 : List.filter (fun s => !(R.containsPt s.b && R.containsPt s.e)) (if s.e.a s.horz > R.hiA s.horz then [highPart R w s] else []) =
        (if s.e.a s.horz > R.hiA s.horz then [highPart R w s] else []) := by
      split
      · rw [List.filter_cons, hh (by assumption)]; rfl
      · rfl
    rw [g1, g2]
    have g3 : List.filter (fun s => !(R.containsPt s.b && R.containsPt s.e))
        (if (!(decide (s.b.a s.horz ≥ R.hiA s.horz) || decide (s.e.a s.horz ≤ R.loA s.horz))) = true then [midPart R w s] else []) = [] := by
      split
      · rw [List.filter_cons, hm (by assumption)]; rfl
      · rfl
    rw [g3, List.append_nil]

theorem load_out {init : Bool} {R : Box} {w : Nat} {s : DSeg} (hR : R.Proper) (hs : s.Ok)
    (h : trackIn init R s.horz (s.b.c s.horz) = false ∨ R.hiA s.horz < s.b.a s.horz ∨ s.e.a s.horz < R.loA s.horz) :
    loadSplit R (loadSeg init R w s) = ([], [s]) := by
  have hp := (proper_iff s.horz R).1 hR
  obtain ⟨e1, e2, _⟩ := hs.ac
  have hlow : s.e.a s.horz < R.loA s.horz → lowPart R w s = s := by
    intro h
    unfold lowPart
    simp only
    rw [if_neg (by omega), show min (s.e.a s.horz) (R.loA s.horz) = s.e.a s.horz by omega, ptAC_eta]
  have hhigh : R.hiA s.horz < s.b.a s.horz → highPart R w s = s := by
    intro h
    unfold highPart
    simp only
    rw [if_neg (by omega), show max (s.b.a s.horz) (R.hiA s.horz) = s.b.a s.horz by omega, ptAC_eta]
  unfold loadSplit loadSeg
  simp only [hs.straight]
  rw [if_neg (by simp)]
  cases ht : trackIn init R s.horz (s.b.c s.horz)
  · simp
  · rw [ht] at h
    simp only [if_true]
    rcases h with h | h | h
    · simp at h
    · have c1 : ¬ s.b.a s.horz < R.loA s.horz := by omega
      have c2 : ¬ s.e.a s.horz < R.loA s.horz := by omega
      have c3 : s.b.a s.horz ≥ R.hiA s.horz := by omega
      have c4 : s.e.a s.horz > R.hiA s.horz := by omega
      simp [c1, c2, c3, c4, h, hhigh h]
    · have c1 : s.b.a s.horz < R.loA s.horz := by omega
      have c2 : ¬ s.b.a s.horz > R.hiA s.horz := by omega
      have c3 : s.e.a s.horz ≤ R.loA s.horz := by omega
      have c4 : ¬ s.e.a s.horz > R.hiA s.horz := by omega
      simp [c1, c2, c3, c4, h, hlow h]

/-- C56: what loading leaves outside is exactly what removal leaves: the same pieces with the same styles. -/
theorem c56_same_outside {init : Bool} {R : Box} {w : Nat} {s : DSeg} (hR : R.Proper) (hs : s.Ok) :
    (loadSplit R (loadSeg init R w s)).2 = match removeSeg init R w s with | none => [s] | some r => r.1 := by
  cases h : removeSeg init R w s with
  | none => rw [load_out hR hs (removeSeg_none hs h)]
  | some r =>
    obtain ⟨h1, h2, h3, h4, _⟩ := removeSeg_some h
    rw [load_in hR hs h1 h2 h3]
    exact h4.symm

/-- C56: what is loaded for rip-up lies in the closed region and belongs to the net and layer of the wire. -/
theorem c56_loaded_inside {init : Bool} {R : Box} {w : Nat} {s : DSeg} (hR : R.Proper) (hs : s.Ok) {t : DSeg}
    (ht : t ∈ (loadSplit R (loadSeg init R w s)).1) : t.net = s.net ∧ t.layer = s.layer ∧ t.Ok ∧ ∀ p, t.On p ↔ s.On p ∧ R.Has p := by
  obtain ⟨e1, e2, _⟩ := hs.ac
  have hp := (proper_iff s.horz R).1 hR
  by_cases hc : trackIn init R s.horz (s.b.c s.horz) = false ∨ R.hiA s.horz < s.b.a s.horz ∨ s.e.a s.horz < R.loA s.horz
  · rw [load_out hR hs hc] at ht
    simp at ht
  · have h1 : trackIn init R s.horz (s.b.c s.horz) = true := by
      cases h : trackIn init R s.horz (s.b.c s.horz)
      · exact absurd (.inl h) hc
      · rfl
    rw [load_in hR hs h1 (by omega) (by omega)] at ht
    simp only at ht
    split at ht
    · rename_i hmid
      simp at ht hmid
      subst ht
      have h1' := trackIn_iff.1 h1
      refine ⟨rfl, rfl, ?_, ?_⟩
      · apply ok_of_ac s.horz
        · unfold midPart; simp only [ptAC_c]; omega
        · unfold midPart; simp only [ptAC_a]; omega
      · intro p
        rw [mid_on, has_iff s.horz, dseg_on_iff s.horz]
        omega
    · simp at ht

/-- C56: a wire of positive length is loaded completely: the loaded part and the part left outside together cover exactly
the wire. -/
theorem c56_cover {init : Bool} {R : Box} {w : Nat} {s : DSeg} (hR : R.Proper) (hs : s.Ok) (hne : s.b ≠ s.e) (p : Point) :
    s.On p ↔ ∃ t, (t ∈ (loadSplit R (loadSeg init R w s)).1 ∨ t ∈ (loadSplit R (loadSeg init R w s)).2) ∧ t.On p := by
  obtain ⟨e1, e2, _⟩ := hs.ac
  have hp := (proper_iff s.horz R).1 hR
  have hlt : s.b.a s.horz < s.e.a s.horz := by
    by_cases h : s.b.a s.horz = s.e.a s.horz
    · exact absurd (pt_ext_ac s.horz h e1.symm) hne
    · omega
  by_cases hc : trackIn init R s.horz (s.b.c s.horz) = false ∨ R.hiA s.horz < s.b.a s.horz ∨ s.e.a s.horz < R.loA s.horz
  · rw [load_out hR hs hc]
    simp
  · have h1 : trackIn init R s.horz (s.b.c s.horz) = true := by
      cases h : trackIn init R s.horz (s.b.c s.horz)
      · exact absurd (.inl h) hc
      · rfl
    rw [load_in hR hs h1 (by omega) (by omega)]
    simp only
    constructor
    · intro hon
      have hon' := (dseg_on_iff s.horz s p).1 hon
      by_cases a1 : s.b.a s.horz < R.loA s.horz ∧ p.a s.horz ≤ R.loA s.horz
      · exact ⟨lowPart R w s, .inr (by rw [if_pos a1.1]; simp), (low_on p).2 ⟨hon, a1.2⟩⟩
      · by_cases a2 : s.e.a s.horz > R.hiA s.horz ∧ R.hiA s.horz ≤ p.a s.horz
        · exact ⟨highPart R w s, .inr (by rw [if_pos a2.1]; simp), (high_on p).2 ⟨hon, a2.2⟩⟩
        · refine ⟨midPart R w s, .inl ?_, (mid_on p).2 ⟨hon, by omega, by omega⟩⟩
          rw [if_pos (by simp; omega)]
          simp
    · rintro ⟨t, ht, hon⟩
      rcases ht with ht | ht
      · split at ht
        · simp at ht; subst ht; exact ((mid_on p).1 hon).1
        · simp at ht
      · rcases List.mem_append.1 ht with ht | ht <;> split at ht <;> simp at ht <;> subst ht
        · exact ((low_on p).1 hon).1
        · exact ((high_on p).1 hon).1

theorem mem_loadRoutes_seg {init : Bool} {R ext : Box} {width : Int → Nat} {objs : List DObj} (hR : R.Proper) (hok : WiresOk objs)
    (hext : ∀ p, R.Has p → ext.Has p) {t : DSeg} :
    .seg t ∈ loadRoutes init R ext width objs ↔ ∃ s, .seg s ∈ objs ∧ t ∈ (loadSplit R (loadSeg init R (width s.layer) s)).1 := by
  unfold loadRoutes
  rw [List.mem_flatMap]
  constructor
  · rintro ⟨o, ho, h⟩
    unfold loadObj at h
    split at h
    · cases o with
      | seg s =>
        simp only [List.mem_map] at h
        obtain ⟨u, hu, e⟩ := h
        injection e with e
        subst e
        exact ⟨s, ho, hu⟩
      | via v => simp only at h; split at h <;> simp at h
      | patch v => simp only at h; split at h <;> simp at h
    · simp at h
  · rintro ⟨s, hs, ht⟩
    refine ⟨_, hs, ?_⟩
    unfold loadObj
    obtain ⟨_, _, hok', hon⟩ := c56_loaded_inside hR (hok s hs) ht
    have h1 := (hon t.b).1 (dseg_ends_on hok').1
    rw [if_pos]
    · exact List.mem_map.2 ⟨t, ht, rfl⟩
    · exact overlaps_pt (hext _ h1.2) (bbox_has (hok s hs) h1.1)

/-- C56: a worker that loads its region and writes the loaded objects back unchanged leaves every centre line of every net
as it was, for any set of modified nets and any boundary points. -/
theorem c56_round_trip (grid : Int) (pinAt : Nat → Node → Bool) {ord : List DSeg → List DSeg} (hord : ∀ l, (ord l).Perm l)
    {init : Bool} {R ext : Box} {width : Int → Nat} {mod : Nat → Bool} {objs : List DObj} (hR : R.Proper) (hok : WiresOk objs)
    (hne : ∀ s, .seg s ∈ objs → s.b ≠ s.e) (hext : ∀ p, R.Has p → ext.Has p) (bounds : List (Nat × Node)) (net : Nat) (l : Int) (p : Point) :
    Wired (addNets grid pinAt ord (removeNets init R width mod objs).1
      ((loadRoutes init R ext width objs).filter (fun o => mod o.net)) bounds) net l p ↔ Wired objs net l p := by
  have hload : ∀ t, .seg t ∈ (loadRoutes init R ext width objs).filter (fun o => mod o.net) ↔
      ∃ s, .seg s ∈ objs ∧ mod s.net = true ∧ t ∈ (loadSplit R (loadSeg init R (width s.layer) s)).1 := by
    intro t
    rw [List.mem_filter, mem_loadRoutes_seg hR hok hext]
    constructor
    · rintro ⟨⟨s, hs, ht⟩, hm⟩
      exact ⟨s, hs, by rw [← (c56_loaded_inside hR (hok s hs) ht).1]; exact hm, ht⟩
    · rintro ⟨s, hs, hm, ht⟩
      exact ⟨⟨s, hs, ht⟩, by show mod t.net = true; rw [(c56_loaded_inside hR (hok s hs) ht).1]; exact hm⟩
  have hok' : WiresOk ((removeNets init R width mod objs).1 ++ (loadRoutes init R ext width objs).filter (fun o => mod o.net)) := by
    intro t ht
    rcases List.mem_append.1 ht with h | h
    · exact removed_ok hR hok t h
    · obtain ⟨s, hs, _, h⟩ := (hload t).1 h
      exact (c56_loaded_inside hR (hok s hs) h).2.2.1
  rw [(c26_centre_lines_kept grid pinAt hord hok' bounds).2 net l p]
  have hsame : ∀ s, .seg s ∈ objs → mod s.net = true → ∀ t, t ∈ (loadSplit R (loadSeg init R (width s.layer) s)).2 → .seg t ∈ (removeNets init R width mod objs).1 := by
    intro s hs hm t ht
    rw [c56_same_outside hR (hok s hs)] at ht
    apply (removed_seg hR hok t).2
    refine ⟨s, hs, ?_⟩
    cases hr : removeSeg init R (width s.layer) s with
    | none => rw [hr] at ht; simp at ht; exact .inl ⟨.inr rfl, ht⟩
    | some r => rw [hr] at ht; exact .inr ⟨hm, r, rfl, ht⟩
  constructor
  · rintro ⟨t, ht, h1, h2, h3⟩
    rcases List.mem_append.1 ht with h | h
    · obtain ⟨s, hs, ⟨_, rfl⟩ | ⟨_, r, hr, htr⟩⟩ := (removed_seg hR hok t).1 h
      · exact ⟨_, hs, h1, h2, h3⟩
      · obtain ⟨a1, a2, _⟩ := part_net hr htr
        exact ⟨s, hs, by omega, by omega, ((part_points (hok s hs) hr p).1 ⟨t, htr, h3⟩).1⟩
    · obtain ⟨s, hs, _, h⟩ := (hload t).1 h
      obtain ⟨a1, a2, _, a4⟩ := c56_loaded_inside hR (hok s hs) h
      exact ⟨s, hs, by omega, by omega, ((a4 p).1 h3).1⟩
  · rintro ⟨s, hs, h1, h2, h3⟩
    cases hm : mod s.net
    · exact ⟨s, List.mem_append.2 (.inl ((removed_seg hR hok s).2 ⟨s, hs, .inl ⟨.inl hm, rfl⟩⟩)), h1, h2, h3⟩
    · obtain ⟨t, ht, hon⟩ := (c56_cover (init := init) (w := width s.layer) hR (hok s hs) (hne s hs) p).1 h3
      rcases ht with ht | ht
      · obtain ⟨a1, a2, _, _⟩ := c56_loaded_inside hR (hok s hs) ht
        exact ⟨t, List.mem_append.2 (.inr ((hload t).2 ⟨s, hs, hm, ht⟩)), by omega, by omega, hon⟩
      · have hin := hsame s hs hm t ht
        have hn : t.net = s.net ∧ t.layer = s.layer := by
          rw [c56_same_outside hR (hok s hs)] at ht
          cases hr : removeSeg init R (width s.layer) s with
          | none => rw [hr] at ht; simp at ht; rw [ht]; exact ⟨rfl, rfl⟩
          | some r => rw [hr] at ht; exact ⟨(part_net hr ht).1, (part_net hr ht).2.1⟩
        exact ⟨t, List.mem_append.2 (.inl hin), by omega, by omega, hon⟩

/-- C56: vias and patches come back too, if their boxes cover their origins. -/
theorem c56_vias_round_trip {init : Bool} {R ext : Box} {width : Int → Nat} {mod : Nat → Bool} {objs : List DObj}
    (hext : ∀ p, R.Has p → ext.Has p) (hv : ∀ v, .via v ∈ objs → (v.off.at v.o).Has v.o) (hq : ∀ v, .patch v ∈ objs → (v.off.at v.o).Has v.o) {o : DObj}
    (ho : ∀ s, o ≠ .seg s) :
    o ∈ (removeNets init R width mod objs).1 ++ (loadRoutes init R ext width objs).filter (fun o => mod o.net) ↔ o ∈ objs := by
  have hin : ∀ p : Point, originIn init R p = true ↔ R.Has p ∧ (init = true → p.x < R.right ∧ p.y < R.top) := by
    intro p
    unfold originIn Box.Has
    cases init <;> simp <;> omega
  have hload : ∀ x ∈ loadRoutes init R ext width objs, x = o → x ∈ objs := by
    intro x hx e
    unfold loadRoutes at hx
    obtain ⟨y, hy, hx⟩ := List.mem_flatMap.1 hx
    unfold loadObj at hx
    split at hx
    · cases y with
      | seg s =>
        obtain ⟨t, _, e'⟩ := List.mem_map.1 hx
        exact absurd (e.symm.trans e'.symm) (ho t)
      | via v => simp only at hx; split at hx <;> simp at hx; rw [hx]; exact hy
      | patch v => simp only at hx; split at hx <;> simp at hx; rw [hx]; exact hy
    · simp at hx
  cases hm : mod o.net with
  | false =>
    have hf := c25_unmodified init R width mod objs hm
    have h1 : o ∈ (removeNets init R width mod objs).1 ↔ o ∈ objs := by
      have h2 : ∀ l : List DObj, o ∈ l ↔ o ∈ l.filter (fun x => decide (x.net = o.net)) := by
        intro l
        rw [List.mem_filter]
        simp
      rw [h2, h2 objs, hf]
    rw [List.mem_append, h1, List.mem_filter, hm]
    simp
  | true =>
    rw [List.mem_append, List.mem_filter]
    cases o with
    | seg s => exact absurd rfl (ho s)
    | via v =>
      have h1 := c25_vias (init := init) (R := R) (width := width) (mod := mod) hv (v := v) hm
      rw [← hin] at h1
      rw [h1]
      constructor
      · rintro (h | h)
        · exact h.1
        · exact hload _ h.1 rfl
      · intro h
        by_cases hc : originIn init R v.o = true
        · right
          refine ⟨?_, hm⟩
          unfold loadRoutes
          refine List.mem_flatMap.2 ⟨_, h, ?_⟩
          unfold loadObj
          rw [if_pos (show ext.overlaps (DObj.via v).bbox = true from overlaps_pt (hext _ ((hin v.o).1 hc).1) (hv v h))]
          simp [hc]
        · exact .inl ⟨h, hc⟩
    | patch v =>
      have h1 := c25_patches (init := init) (R := R) (width := width) (mod := mod) hq (v := v) hm
      rw [← hin] at h1
      rw [h1]
      constructor
      · rintro (h | h)
        · exact h.1
        · exact hload _ h.1 rfl
      · intro h
        by_cases hc : originIn init R v.o = true
        · right
          refine ⟨?_, hm⟩
          unfold loadRoutes
          refine List.mem_flatMap.2 ⟨_, h, ?_⟩
          unfold loadObj
          rw [if_pos (show ext.overlaps (DObj.patch v).bbox = true from overlaps_pt (hext _ ((hin v.o).1 hc).1) (hq v h))]
          simp [hc]
        · exact .inl ⟨h, hc⟩

/-- a wire crossing the region [0,100]² from x = -50 to 150 -/
def wbLong : DSeg := ⟨1, 2, ⟨-50, 40⟩, ⟨150, 40⟩, ⟨.truncate, 0, .truncate, 0, 10⟩⟩
def wbR : Box := ⟨⟨0, 0⟩, ⟨100, 100⟩⟩

/-- the hypotheses of C25, C26 and C56 hold and the wire is really cut into three pieces -/
example : wbR.Proper ∧ wbLong.Ok ∧ wbLong.b ≠ wbLong.e ∧
    loadSplit wbR (loadSeg false wbR 10 wbLong) =
      ([⟨1, 2, ⟨0, 40⟩, ⟨100, 40⟩, ⟨.extend, 5, .extend, 5, 10⟩⟩],
       [⟨1, 2, ⟨-50, 40⟩, ⟨0, 40⟩, ⟨.truncate, 0, .extend, 5, 10⟩⟩, ⟨1, 2, ⟨100, 40⟩, ⟨150, 40⟩, ⟨.extend, 5, .truncate, 0, 10⟩⟩]) ∧
    removeNets false wbR (fun _ => 10) (fun _ => true) [.seg wbLong] =
      ([.seg ⟨1, 2, ⟨-50, 40⟩, ⟨0, 40⟩, ⟨.truncate, 0, .extend, 5, 10⟩⟩, .seg ⟨1, 2, ⟨100, 40⟩, ⟨150, 40⟩, ⟨.extend, 5, .truncate, 0, 10⟩⟩],
       [(1, ⟨⟨0, 40⟩, 2⟩), (1, ⟨⟨100, 40⟩, 2⟩)]) := by
  refine ⟨by unfold Box.Proper; decide, by unfold DSeg.Ok; decide, by decide, by decide, by decide⟩

/-- and writing the loaded piece back restores the wire, merged at both boundary points, with its outer end styles -/
example : addNets 5 (fun _ _ => false) id (removeNets false wbR (fun _ => 10) (fun _ => true) [.seg wbLong]).1
    (loadRoutes false wbR wbR (fun _ => 10) [.seg wbLong]) [(1, ⟨⟨0, 40⟩, 2⟩), (1, ⟨⟨100, 40⟩, 2⟩)] = [.seg wbLong] := by decide

/-- A zero-length wire on the border of the region is removed from the design but not loaded: it is lost. So the positive length
in C56 is needed. -/
theorem c56_zero_length_lost :
    let s : DSeg := ⟨1, 2, ⟨40, 0⟩, ⟨40, 0⟩, ⟨.extend, 5, .extend, 5, 10⟩⟩
    loadSplit wbR (loadSeg false wbR 10 s) = ([], []) ∧ (removeNets false wbR (fun _ => 10) (fun _ => true) [.seg s]).1 = [] := by decide

end TR
