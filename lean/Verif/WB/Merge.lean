import Verif.WB.Props
/-! # Merging at boundary points: property C26 -/
namespace TR

theorem dseg_ends_on {s : DSeg} (hs : s.Ok) : s.On s.b ∧ s.On s.e := by
  unfold DSeg.Ok at hs
  unfold DSeg.On
  omega

theorem mem_segsAt {objs : List DObj} (hok : WiresOk objs) {net : Nat} {n : Node} {horz : Bool} {s : DSeg} :
    s ∈ segsAt objs net n horz ↔ .seg s ∈ objs ∧ s.layer = n.layer ∧ s.net = net ∧ (s.b = n.pt ∨ s.e = n.pt) ∧ s.horz = horz := by
  unfold segsAt
  rw [List.mem_filterMap]
  constructor
  · rintro ⟨o, ho, h⟩
    cases o with
    | seg t =>
      simp only at h
      split at h
      · rename_i hc
        simp at h
        subst h
        exact ⟨ho, hc.1, hc.2.2.1, hc.2.2.2.1, hc.2.2.2.2⟩
      · simp at h
    | via v => simp at h
    | patch v => simp at h
  · rintro ⟨h1, h2, h3, h4, h5⟩
    refine ⟨.seg s, h1, ?_⟩
    simp only
    have : s.bbox.overlaps ⟨n.pt, n.pt⟩ = true := by
      refine overlaps_pt (p := n.pt) ?_ (by simp [Box.Has])
      rcases h4 with h | h <;> rw [← h]
      · exact bbox_has (hok s h1) (dseg_ends_on (hok s h1)).1
      · exact bbox_has (hok s h1) (dseg_ends_on (hok s h1)).2
    rw [if_pos ⟨h2, this, h3, h4, h5⟩]

/-- the merged wire covers exactly the union -/
theorem merge_on {s1 s2 : DSeg} {h : Bool} {q : Point} (h1 : s1.Ok) (h2 : s2.Ok) (hh1 : s1.horz = h) (hh2 : s2.horz = h)
    (hq1 : s1.On q) (hq2 : s2.On q) (p : Point) : (mergeSegs h s1 s2).On p ↔ s1.On p ∨ s2.On p := by
  obtain ⟨a1, a2, _⟩ := h1.ac
  obtain ⟨b1, b2, _⟩ := h2.ac
  rw [hh1] at a1 a2
  rw [hh2] at b1 b2
  rw [dseg_on_iff h] at hq1 hq2
  rw [dseg_on_iff h, dseg_on_iff h, dseg_on_iff h]
  unfold mergeSegs
  simp only [ptAC_a, ptAC_c]
  omega

theorem merge_ok {s1 s2 : DSeg} {h : Bool} (h1 : s1.Ok) (hh1 : s1.horz = h) : (mergeSegs h s1 s2).Ok := by
  obtain ⟨a1, a2, _⟩ := h1.ac
  rw [hh1] at a1 a2
  apply ok_of_ac h
  · unfold mergeSegs; simp only [ptAC_c]; omega
  · unfold mergeSegs; simp only [ptAC_a]; omega

/-- the data of one merge -/
structure MergeOf (objs objs' : List DObj) (net : Nat) (n : Node) (s1 s2 m : DSeg) (rest : List DObj) : Prop where
  before : objs.Perm (.seg s1 :: .seg s2 :: rest)
  after : objs'.Perm (.seg m :: rest)
  only : (endWires objs net n).Perm [s1, s2]
  par : s1.horz = s2.horz
  eq : m = mergeSegs s1.horz s1 s2
  nopatch : ∀ p, .patch p ∈ objs → p.net = net → p.layer = n.layer → p.o = n.pt → ¬ (p.off.at p.o).Has n.pt

theorem erase_two {objs : List DObj} {f : DObj → Option DSeg} (hf : ∀ o s, f o = some s → o = .seg s) {s1 s2 : DSeg}
    (h : (objs.filterMap f).Perm [s1, s2]) :
    objs.Perm (.seg s1 :: .seg s2 :: (objs.erase (.seg s1)).erase (.seg s2)) := by
  have m1 : s1 ∈ objs.filterMap f := h.mem_iff.2 (by simp)
  obtain ⟨o, ho, hs⟩ := List.mem_filterMap.1 m1
  have := hf o s1 hs
  subst this
  have p1 := List.perm_cons_erase ho
  have p2 := p1.filterMap f
  rw [List.filterMap_cons, hs] at p2
  have p3 := (p2.symm.trans h).cons_inv
  have m2 : s2 ∈ (objs.erase (.seg s1)).filterMap f := p3.mem_iff.2 (by simp)
  obtain ⟨o, ho', hs'⟩ := List.mem_filterMap.1 m2
  have := hf o s2 hs'
  subst this
  exact p1.trans ((List.perm_cons_erase ho').cons _)

theorem segsAt_fun {net : Nat} {n : Node} {horz : Bool} (o : DObj) (s : DSeg) :
    (match o with
      | .seg s => if s.layer = n.layer ∧ s.bbox.overlaps ⟨n.pt, n.pt⟩ ∧ s.net = net ∧ (s.b = n.pt ∨ s.e = n.pt) ∧ s.horz = horz then some s else none
      | _ => none) = some s → o = .seg s := by
  cases o with
  | seg t =>
    simp only
    split
    · intro h; simp at h; rw [h]
    · intro h; simp at h
  | via v => simp
  | patch v => simp

theorem filterMap_ext {α β : Type} {f g : α → Option β} {l : List α} (h : ∀ x ∈ l, f x = g x) : l.filterMap f = l.filterMap g := by
  induction l with
  | nil => rfl
  | cons a l ih =>
    rw [List.filterMap_cons, List.filterMap_cons, h a (by simp), ih (fun x hx => h x (by simp [hx]))]

theorem endWires_of {objs : List DObj} (hok : WiresOk objs) {net : Nat} {n : Node} {horz : Bool} (he : segsAt objs net n (!horz) = []) :
    endWires objs net n = segsAt objs net n horz := by
  unfold endWires segsAt
  apply filterMap_ext
  intro o ho
  cases o with
  | seg s =>
    simp only
    by_cases hc : s.net = net ∧ s.layer = n.layer ∧ (s.b = n.pt ∨ s.e = n.pt)
    · rw [if_pos hc]
      have h1 : ¬ s ∈ segsAt objs net n (!horz) := by rw [he]; simp
      rw [mem_segsAt hok] at h1
      have h2 : s.horz = horz := by
        cases h3 : s.horz <;> cases horz <;> first | rfl | (exfalso; exact h1 ⟨ho, hc.2.1, hc.1, hc.2.2, by rw [h3]; rfl⟩)
      have : s.bbox.overlaps ⟨n.pt, n.pt⟩ = true := by
        refine overlaps_pt (p := n.pt) ?_ (by simp [Box.Has])
        rcases hc.2.2 with h | h <;> rw [← h]
        · exact bbox_has (hok s ho) (dseg_ends_on (hok s ho)).1
        · exact bbox_has (hok s ho) (dseg_ends_on (hok s ho)).2
      rw [if_pos ⟨hc.2.1, this, hc.1, hc.2.2, h2⟩]
    · rw [if_neg hc, if_neg (fun h => hc ⟨h.2.2.1, h.1, h.2.2.2.1⟩)]
  | via v => rfl
  | patch v => rfl

theorem overlaps_iff_touches {a b : Box} (ha : a.Proper) (hb : b.Proper) : a.overlaps b = true ↔ Touches a b := by
  constructor
  · intro h
    unfold Box.overlaps at h
    simp at h
    unfold Box.Proper at ha hb
    refine ⟨⟨max a.left b.left, max a.bottom b.bottom⟩, ?_, ?_⟩ <;> unfold Box.Has <;> simp only <;> omega
  · rintro ⟨p, h1, h2⟩
    exact overlaps_pt h1 h2

theorem mergePt_cases {grid : Int} {pinAt : Nat → Node → Bool} {ord : List DSeg → List DSeg} (hord : ∀ l, (ord l).Perm l)
    {objs : List DObj} (hok : WiresOk objs) (net : Nat) (n : Node) :
    mergePt grid pinAt ord objs net n = objs ∨
    ((pinAt net n = true → n.pt.x.tmod grid ≠ 0 ∨ n.pt.y.tmod grid ≠ 0) ∧
      ∃ s1 s2 m rest, MergeOf objs (mergePt grid pinAt ord objs net n) net n s1 s2 m rest) := by
  unfold mergePt
  split
  · exact .inl rfl
  · rename_i hpin
    split
    · exact .inl rfl
    · rename_i hpa
      have hpin' : pinAt net n = true → n.pt.x.tmod grid ≠ 0 ∨ n.pt.y.tmod grid ≠ 0 := by
        intro h
        rw [h] at hpin
        simp only [Bool.true_and, Bool.not_eq_true', Bool.or_eq_false_iff, decide_eq_false_iff_not, not_and, Classical.not_not] at hpin
        by_cases h1 : n.pt.x.tmod grid = 0
        · exact .inr (fun h2 => hpin h1 h2)
        · exact .inl h1
      have hnp : ∀ p, .patch p ∈ objs → p.net = net → p.layer = n.layer → p.o = n.pt → ¬ (p.off.at p.o).Has n.pt := by
        intro p hp h1 h2 h3 h4
        apply hpa
        unfold patchAt
        rw [List.any_eq_true]
        refine ⟨_, hp, ?_⟩
        simp only [Bool.and_eq_true, decide_eq_true_eq]
        exact ⟨⟨⟨h2, overlaps_pt (p := n.pt) h4 (by simp [Box.Has])⟩, h1⟩, h3⟩
      have key : ∀ horz s1 s2, ord (segsAt objs net n horz) = [s1, s2] → ord (segsAt objs net n (!horz)) = [] →
          MergeOf objs (((objs.erase (.seg s1)).erase (.seg s2)) ++ [.seg (mergeSegs horz s1 s2)]) net n s1 s2 (mergeSegs horz s1 s2)
            ((objs.erase (.seg s1)).erase (.seg s2)) := by
        intro horz s1 s2 e1 e2
        have p1 := hord (segsAt objs net n horz)
        rw [e1] at p1
        have p2 := hord (segsAt objs net n (!horz))
        rw [e2] at p2
        have hn := p2.symm.eq_nil
        have hm1 := (mem_segsAt hok).1 (p1.mem_iff.1 (show s1 ∈ [s1, s2] by simp))
        have hm2 := (mem_segsAt hok).1 (p1.mem_iff.1 (show s2 ∈ [s1, s2] by simp))
        refine ⟨erase_two (fun o s h => segsAt_fun (net := net) (n := n) (horz := horz) o s h) p1.symm, ?_, ?_, ?_, ?_, hnp⟩
        · exact List.perm_append_singleton _ _
        · rw [endWires_of hok hn]; exact p1.symm
        · rw [hm1.2.2.2.2, hm2.2.2.2.2]
        · rw [hm1.2.2.2.2]
      split
      · rename_i s1 s2 e1 e2
        exact .inr ⟨hpin', s1, s2, _, _, key true s1 s2 e1 e2⟩
      · rename_i s1 s2 e1 e2
        exact .inr ⟨hpin', s1, s2, _, _, key false s1 s2 e2 e1⟩
      · exact .inl rfl

theorem mergeOf_mem {objs objs' : List DObj} {net : Nat} {n : Node} {s1 s2 m : DSeg} {rest : List DObj}
    (h : MergeOf objs objs' net n s1 s2 m rest) (s : DSeg) (hs : s = s1 ∨ s = s2) :
    .seg s ∈ objs ∧ s.net = net ∧ s.layer = n.layer ∧ (s.b = n.pt ∨ s.e = n.pt) := by
  have : s ∈ endWires objs net n := h.only.mem_iff.2 (by rcases hs with rfl | rfl <;> simp)
  unfold endWires at this
  obtain ⟨o, ho, hf⟩ := List.mem_filterMap.1 this
  cases o with
  | seg t =>
    simp only at hf
    split at hf
    · simp at hf; subst hf; exact ⟨ho, by assumption⟩
    · simp at hf
  | via v => simp at hf
  | patch v => simp at hf

theorem mergeOf_net {objs objs' : List DObj} {net : Nat} {n : Node} {s1 s2 m : DSeg} {rest : List DObj}
    (h : MergeOf objs objs' net n s1 s2 m rest) : m.net = net ∧ m.layer = n.layer := by
  have := mergeOf_mem h s1 (.inl rfl)
  rw [h.eq]
  exact ⟨this.2.1, this.2.2.1⟩

theorem mergeOf_on {objs objs' : List DObj} {net : Nat} {n : Node} {s1 s2 m : DSeg} {rest : List DObj} (hok : WiresOk objs)
    (h : MergeOf objs objs' net n s1 s2 m rest) (p : Point) : m.On p ↔ s1.On p ∨ s2.On p := by
  have a := mergeOf_mem h s1 (.inl rfl)
  have b := mergeOf_mem h s2 (.inr rfl)
  rw [h.eq]
  have on : ∀ s : DSeg, .seg s ∈ objs → (s.b = n.pt ∨ s.e = n.pt) → s.On n.pt := by
    intro s hs hb
    rcases hb with hb | hb <;> rw [← hb]
    · exact (dseg_ends_on (hok s hs)).1
    · exact (dseg_ends_on (hok s hs)).2
  exact merge_on (hok _ a.1) (hok _ b.1) rfl h.par.symm (on _ a.1 a.2.2.2) (on _ b.1 b.2.2.2) p

theorem mergeOf_ok {objs objs' : List DObj} {net : Nat} {n : Node} {s1 s2 m : DSeg} {rest : List DObj} (hok : WiresOk objs)
    (h : MergeOf objs objs' net n s1 s2 m rest) : WiresOk objs' := by
  intro t ht
  rcases List.mem_cons.1 (h.after.mem_iff.1 ht) with e | e
  · injection e with e
    subst e
    rw [h.eq]
    exact merge_ok (hok _ (mergeOf_mem h s1 (.inl rfl)).1) rfl
  · exact hok t (h.before.mem_iff.2 (by simp [e]))

theorem mergeOf_wired {objs objs' : List DObj} {net : Nat} {n : Node} {s1 s2 m : DSeg} {rest : List DObj} (hok : WiresOk objs)
    (h : MergeOf objs objs' net n s1 s2 m rest) (k : Nat) (l : Int) (p : Point) : Wired objs' k l p ↔ Wired objs k l p := by
  have a := mergeOf_mem h s1 (.inl rfl)
  have b := mergeOf_mem h s2 (.inr rfl)
  have c := mergeOf_net h
  constructor
  · rintro ⟨t, ht, h1, h2, h3⟩
    rcases List.mem_cons.1 (h.after.mem_iff.1 ht) with e | e
    · injection e with e
      subst e
      rcases (mergeOf_on hok h p).1 h3 with g | g
      · exact ⟨s1, a.1, by omega, by omega, g⟩
      · exact ⟨s2, b.1, by omega, by omega, g⟩
    · exact ⟨t, h.before.mem_iff.2 (by simp [e]), h1, h2, h3⟩
  · rintro ⟨t, ht, h1, h2, h3⟩
    rcases List.mem_cons.1 (h.before.mem_iff.1 ht) with e | e
    · injection e with e
      subst e
      exact ⟨m, h.after.mem_iff.2 (by simp), by omega, by omega, (mergeOf_on hok h p).2 (.inl h3)⟩
    · rcases List.mem_cons.1 e with e | e
      · injection e with e
        subst e
        exact ⟨m, h.after.mem_iff.2 (by simp), by omega, by omega, (mergeOf_on hok h p).2 (.inr h3)⟩
      · exact ⟨t, h.after.mem_iff.2 (by simp [e]), h1, h2, h3⟩

/-- C26: at a boundary point either nothing happens, or exactly two wires of the net end there on the layer, both
horizontal or both vertical, no patch metal sits there, and they are replaced by one wire of the net and
layer that covers exactly the union of the two; if the point is on a pin of the net, it is off grid. -/
theorem c26_merge (grid : Int) (pinAt : Nat → Node → Bool) {ord : List DSeg → List DSeg} (hord : ∀ l, (ord l).Perm l)
    {objs : List DObj} (hok : WiresOk objs) (net : Nat) (n : Node) :
    mergePt grid pinAt ord objs net n = objs ∨
    ∃ s1 s2 m rest, objs.Perm (.seg s1 :: .seg s2 :: rest) ∧ (mergePt grid pinAt ord objs net n).Perm (.seg m :: rest) ∧
      (endWires objs net n).Perm [s1, s2] ∧ s1.horz = s2.horz ∧
      (∀ p, .patch p ∈ objs → p.net = net → p.layer = n.layer → p.o = n.pt → ¬ (p.off.at p.o).Has n.pt) ∧
      (pinAt net n = true → n.pt.x.tmod grid ≠ 0 ∨ n.pt.y.tmod grid ≠ 0) ∧
      m.net = net ∧ m.layer = n.layer ∧ m.st.width = s1.st.width ∧ ∀ p, m.On p ↔ s1.On p ∨ s2.On p := by
  rcases mergePt_cases (grid := grid) (pinAt := pinAt) hord hok net n with h | ⟨hp, s1, s2, m, rest, h⟩
  · exact .inl h
  · refine .inr ⟨s1, s2, m, rest, h.before, h.after, h.only, h.par, h.nopatch, hp, (mergeOf_net h).1, (mergeOf_net h).2, ?_, mergeOf_on hok h⟩
    rw [h.eq]
    unfold mergeSegs
    simp only
    split <;> rfl

/-- C26: when a wire ending at the point and a wire beginning there are merged, the begin of the first and the end
of the second keep their places and styles. -/
theorem c26_end_styles (grid : Int) (pinAt : Nat → Node → Bool) {ord : List DSeg → List DSeg} (hord : ∀ l, (ord l).Perm l)
    {objs : List DObj} (hok : WiresOk objs) (net : Nat) (n : Node) {u v : DSeg} (ho : (endWires objs net n).Perm [u, v])
    (hu : u.e = n.pt) (hv : v.b = n.pt) (hu' : u.b ≠ u.e) (hc : mergePt grid pinAt ord objs net n ≠ objs) :
    ∃ m rest, (mergePt grid pinAt ord objs net n).Perm (.seg m :: rest) ∧ objs.Perm (.seg u :: .seg v :: rest) ∧
      m.b = u.b ∧ m.e = v.e ∧ m.st.beginKind = u.st.beginKind ∧ m.st.beginExt = u.st.beginExt ∧
      m.st.endKind = v.st.endKind ∧ m.st.endExt = v.st.endExt := by
  rcases mergePt_cases (grid := grid) (pinAt := pinAt) hord hok net n with h | ⟨hp, s1, s2, m, rest, h⟩
  · exact absurd h hc
  · have hpp := h.only.symm.trans ho
    have a := mergeOf_mem h s1 (.inl rfl)
    have b := mergeOf_mem h s2 (.inr rfl)
    have key : (s1 = u ∧ s2 = v) ∨ (s1 = v ∧ s2 = u) := by
      have := hpp.mem_iff.1 (show s1 ∈ [s1, s2] by simp)
      simp only [List.mem_cons, List.not_mem_nil, or_false] at this
      rcases this with rfl | rfl
      · have := hpp.cons_inv.mem_iff.1 (show s2 ∈ [s2] by simp)
        simp at this
        exact .inl ⟨rfl, this⟩
      · have q := (hpp.trans (List.Perm.swap s1 u [])).cons_inv.mem_iff.1 (show s2 ∈ [s2] by simp)
        simp at q
        exact .inr ⟨rfl, q⟩
    have hval : ∀ s : DSeg, .seg s ∈ objs → s.e.c s.horz = s.b.c s.horz ∧ s.b.a s.horz ≤ s.e.a s.horz := fun s hs => ⟨(hok s hs).ac.1, (hok s hs).ac.2.1⟩
    have hne : u.Ok → u.b.a u.horz < u.e.a u.horz := by
      intro ho
      have h1 := ho.ac
      by_cases hq : u.b.a u.horz = u.e.a u.horz
      · exact absurd (pt_ext_ac u.horz hq h1.1.symm) hu'
      · omega
    rcases key with ⟨rfl, rfl⟩ | ⟨rfl, rfl⟩
    · have hlt := hne (hok _ a.1)
      have va := hval _ a.1
      have vb := hval _ b.1
      have e : s1.e = s2.b := by rw [hu, hv]
      have hh := h.par
      rw [← hh] at vb
      refine ⟨m, rest, h.after, h.before, ?_⟩
      rw [h.eq]
      generalize s1.horz = hz at *
      unfold mergeSegs
      simp only
      rw [if_pos (by rw [← e]; exact hlt)]
      rw [← e] at vb ⊢
      refine ⟨pt_ext_ac hz ?_ ?_, pt_ext_ac hz ?_ ?_, rfl, rfl, rfl, rfl⟩
      · rw [ptAC_a]; omega
      · rw [ptAC_c]
      · rw [ptAC_a]; omega
      · rw [ptAC_c]; omega
    · have hlt := hne (hok _ b.1)
      have va := hval _ a.1
      have vb := hval _ b.1
      have e : s2.e = s1.b := by rw [hu, hv]
      have hh := h.par
      rw [← hh] at vb hlt
      refine ⟨m, rest, h.after, h.before.trans (List.Perm.swap _ _ _), ?_⟩
      rw [h.eq]
      generalize s1.horz = hz at *
      unfold mergeSegs
      simp only
      rw [← e] at va ⊢
      rw [if_neg (by omega)]
      refine ⟨pt_ext_ac hz ?_ ?_, pt_ext_ac hz ?_ ?_, rfl, rfl, rfl, rfl⟩
      · rw [ptAC_a]; omega
      · rw [ptAC_c]; omega
      · rw [ptAC_a]; omega
      · rw [ptAC_c]

/-- C26: two parallel wires that are the only ones ending at a boundary point are merged, unless patch metal or a
pin is there. -/
theorem c26_merge_happens (grid : Int) (pinAt : Nat → Node → Bool) {ord : List DSeg → List DSeg} (hord : ∀ l, (ord l).Perm l)
    {objs : List DObj} (hok : WiresOk objs) (net : Nat) (n : Node) {u v : DSeg} (ho : (endWires objs net n).Perm [u, v]) (hp : u.horz = v.horz)
    (hpin : pinAt net n = true → n.pt.x.tmod grid ≠ 0 ∨ n.pt.y.tmod grid ≠ 0)
    (hpatch : ∀ p, .patch p ∈ objs → ¬ (p.net = net ∧ p.layer = n.layer ∧ p.o = n.pt)) :
    (mergePt grid pinAt ord objs net n).length + 1 = objs.length := by
  have hmem : ∀ s ∈ endWires objs net n, s.horz = u.horz := by
    intro s hs
    have := ho.mem_iff.1 hs
    simp only [List.mem_cons, List.not_mem_nil, or_false] at this
    rcases this with rfl | rfl
    · rfl
    · exact hp.symm
  have hempty : segsAt objs net n (!u.horz) = [] := by
    rw [List.eq_nil_iff_forall_not_mem]
    intro s hs
    have h1 := (mem_segsAt hok).1 hs
    have : s ∈ endWires objs net n := by
      unfold endWires
      refine List.mem_filterMap.2 ⟨_, h1.1, ?_⟩
      simp only
      rw [if_pos ⟨h1.2.2.1, h1.2.1, h1.2.2.2.1⟩]
    have h2 := hmem s this
    rw [h1.2.2.2.2] at h2
    cases hh : u.horz <;> rw [hh] at h2 <;> simp at h2
  have hfull := endWires_of hok hempty
  have hl1 : ∃ s1 s2, ord (segsAt objs net n u.horz) = [s1, s2] := by
    have hlen := (hord (segsAt objs net n u.horz)).length_eq
    rw [← hfull, ho.length_eq] at hlen
    match hq : ord (endWires objs net n), hlen with
    | [a, b], _ => rw [← hfull]; exact ⟨a, b, hq⟩
  have hl2 : ord (segsAt objs net n (!u.horz)) = [] := by
    have := hord (segsAt objs net n (!u.horz))
    rw [hempty] at this
    rw [hempty]
    exact this.eq_nil
  obtain ⟨s1, s2, hl1⟩ := hl1
  have hperm := hord (segsAt objs net n u.horz)
  rw [hl1] at hperm
  have he := erase_two (fun o s h => segsAt_fun (net := net) (n := n) (horz := u.horz) o s h) hperm.symm
  have hlen := he.length_eq
  have hna : patchAt objs net n = false := by
    unfold patchAt
    rw [List.any_eq_false]
    intro o hob
    cases o with
    | seg s => simp
    | via s => simp
    | patch p =>
      have := hpatch p hob
      simp only [Bool.and_eq_true, decide_eq_true_eq]
      rintro ⟨⟨⟨h1, h2⟩, h3⟩, h4⟩
      exact this ⟨h3, h1, h4⟩
  unfold mergePt
  rw [if_neg ?_, if_neg (by rw [hna]; simp)]
  · cases hh : u.horz <;> rw [hh] at hl1 hl2
    · simp only [Bool.not_false] at hl2
      rw [hl1, hl2]
      simp at hlen ⊢
      omega
    · simp only [Bool.not_true] at hl2
      rw [hl1, hl2]
      simp at hlen ⊢
      omega
  · cases hq : pinAt net n
    · simp
    · have := hpin hq
      simp
      omega

/-- C26: adding wires and merging at any boundary points preserves every centre line. -/
theorem c26_centre_lines_kept (grid : Int) (pinAt : Nat → Node → Bool) {ord : List DSeg → List DSeg} (hord : ∀ l, (ord l).Perm l)
    {objs routes : List DObj} (hok : WiresOk (objs ++ routes)) (bounds : List (Nat × Node)) :
    WiresOk (addNets grid pinAt ord objs routes bounds) ∧
    ∀ k l p, Wired (addNets grid pinAt ord objs routes bounds) k l p ↔ Wired (objs ++ routes) k l p := by
  unfold addNets
  induction bounds generalizing objs routes with
  | nil => exact ⟨hok, fun _ _ _ => Iff.rfl⟩
  | cons x xs ih =>
    rw [List.foldl_cons]
    rcases mergePt_cases (grid := grid) (pinAt := pinAt) hord hok x.1 x.2 with h | ⟨_, s1, s2, m, rest, h⟩
    · rw [h]; exact ih hok
    · have hok' := mergeOf_ok hok h
      have e : mergePt grid pinAt ord (objs ++ routes) x.1 x.2 = mergePt grid pinAt ord (objs ++ routes) x.1 x.2 ++ [] := by simp
      rw [e] at hok' ⊢
      obtain ⟨h1, h2⟩ := ih hok'
      refine ⟨h1, fun k l p => (h2 k l p).trans ?_⟩
      rw [List.append_nil]
      exact mergeOf_wired hok h k l p

/-- C26: merging leaves vias, patches and the wires of other nets alone -/
theorem c26_rest_kept (grid : Int) (pinAt : Nat → Node → Bool) {ord : List DSeg → List DSeg} (hord : ∀ l, (ord l).Perm l)
    {objs : List DObj} (hok : WiresOk objs) (net : Nat) (n : Node) {o : DObj} (ho : ∀ s, o = .seg s → s.net ≠ net ∨ s.layer ≠ n.layer) :
    (mergePt grid pinAt ord objs net n).count o = objs.count o := by
  rcases mergePt_cases (grid := grid) (pinAt := pinAt) hord hok net n with h | ⟨_, s1, s2, m, rest, h⟩
  · rw [h]
  · have a := mergeOf_mem h s1 (.inl rfl)
    have b := mergeOf_mem h s2 (.inr rfl)
    have c := mergeOf_net h
    rw [h.after.count_eq, h.before.count_eq]
    have ne : ∀ s : DSeg, s.net = net → s.layer = n.layer → ¬ (.seg s == o) = true := by
      intro s h1 h2 h3
      have h4 : DObj.seg s = o := by simpa using h3
      have := ho s h4.symm
      omega
    rw [List.count_cons, List.count_cons, List.count_cons, if_neg (ne _ c.1 c.2), if_neg (ne _ a.2.1 a.2.2.1), if_neg (ne _ b.2.1 b.2.2.1)]

/-- two wires [0,10] and [10,30] of net 1 and a via of net 2; merging at (10,0) -/
def wbDemoStyle : SegStyle := ⟨.truncate, 0, .extend, 5, 10⟩
def wbDemoObjs : List DObj :=
  [.seg ⟨1, 2, ⟨10, 0⟩, ⟨30, 0⟩, { wbDemoStyle with endExt := 7 }⟩, .via ⟨2, 3, ⟨10, 0⟩, ⟨⟨-5, -5⟩, ⟨5, 5⟩⟩⟩, .seg ⟨1, 2, ⟨0, 0⟩, ⟨10, 0⟩, wbDemoStyle⟩]

example : WiresOk wbDemoObjs ∧ endWires wbDemoObjs 1 ⟨⟨10, 0⟩, 2⟩ ≠ [] ∧
    mergePt 5 (fun _ _ => false) id wbDemoObjs 1 ⟨⟨10, 0⟩, 2⟩ =
      [.via ⟨2, 3, ⟨10, 0⟩, ⟨⟨-5, -5⟩, ⟨5, 5⟩⟩⟩, .seg ⟨1, 2, ⟨0, 0⟩, ⟨30, 0⟩, { wbDemoStyle with endExt := 7 }⟩] := by
  refine ⟨?_, by decide, by decide⟩
  intro s hs
  simp [wbDemoObjs] at hs
  rcases hs with rfl | rfl <;> unfold DSeg.Ok <;> decide

/-- on a pin of the net nothing is merged -/
example : mergePt 5 (fun _ _ => true) id wbDemoObjs 1 ⟨⟨10, 0⟩, 2⟩ = wbDemoObjs := by decide

/-- When both wires begin at the point (they overlap), the style of the outer end may come from the shorter wire:
[10,20] without extension and [10,30] extended by 7 become [10,30] without extension. -/
theorem c26_overlap_style_lost :
    let u : DSeg := ⟨1, 2, ⟨10, 0⟩, ⟨20, 0⟩, ⟨.extend, 5, .truncate, 0, 10⟩⟩
    let v : DSeg := ⟨1, 2, ⟨10, 0⟩, ⟨30, 0⟩, ⟨.extend, 5, .extend, 7, 10⟩⟩
    mergePt 5 (fun _ _ => false) id [.seg u, .seg v] 1 ⟨⟨10, 0⟩, 2⟩ = [.seg ⟨1, 2, ⟨10, 0⟩, ⟨30, 0⟩, ⟨.extend, 5, .truncate, 0, 10⟩⟩] := by decide

end TR
