import Verif.RouteNet.Legs
/-! The bookkeeping of `routeNet`: pin map, flags, loop invariant. -/
namespace TR

/-- only flags and labels differ -/
def Base (g0 g : Grid) : Prop := g = { g0 with srcs := g.srcs, dsts := g.dsts, prevs := g.prevs }

namespace Base
theorem on {g0 g : Grid} (h : Base g0 g) (n : MIdx) : g.On n ↔ g0.On n := by rw [h]; exact Iff.rfl
theorem edge {g0 g : Grid} (h : Base g0 g) (n : MIdx) (d : Dir) : g.hasEdge n d = g0.hasEdge n d := by rw [h]; rfl
theorem idx {g0 g : Grid} (h : Base g0 g) (n : MIdx) : g.idx n = g0.idx n := by rw [h]; rfl
theorem xs {g0 g : Grid} (h : Base g0 g) : g.xs = g0.xs := by rw [h]
theorem ys {g0 g : Grid} (h : Base g0 g) : g.ys = g0.ys := by rw [h]
theorem zs {g0 g : Grid} (h : Base g0 g) : g.zs = g0.zs := by rw [h]
theorem loc {g0 g : Grid} (h : Base g0 g) (n : MIdx) : g.loc n = g0.loc n := by rw [h]; rfl
theorem layer {g0 g : Grid} (h : Base g0 g) (n : Int) : g.layer n = g0.layer n := by rw [h]; rfl
theorem refl (g : Grid) : Base g g := rfl
theorem setSrc {g0 g : Grid} (h : Base g0 g) (n : MIdx) : Base g0 (g.setSrc n) := by
  unfold Base at *; rw [h]; rfl
theorem resetSrc {g0 g : Grid} (h : Base g0 g) (n : MIdx) : Base g0 (g.resetSrc n) := by
  unfold Base at *; rw [h]; rfl
theorem setDst {g0 g : Grid} (h : Base g0 g) (n : MIdx) : Base g0 (g.setDst n) := by
  unfold Base at *; rw [h]; rfl
theorem resetDst {g0 g : Grid} (h : Base g0 g) (n : MIdx) : Base g0 (g.resetDst n) := by
  unfold Base at *; rw [h]; rfl
theorem resetAllPrev {g0 g : Grid} (h : Base g0 g) : Base g0 g.resetAllPrev := by
  unfold Base at *; rw [h]; rfl
theorem prevs {g0 g g' : Grid} (h : Base g0 g) (h' : g' = { g with prevs := g'.prevs }) : Base g0 g' := by
  unfold Base at *; rw [h', h]
end Base

theorem isSrc_setSrc (g : Grid) (n m : MIdx) (hn : g.On n) (hm : g.On m) :
    (g.setSrc n).isSrc m = if m = n then true else g.isSrc m := setFlag_idx g g.srcs n m true hn hm
theorem isSrc_resetSrc (g : Grid) (n m : MIdx) (hn : g.On n) (hm : g.On m) :
    (g.resetSrc n).isSrc m = if m = n then false else g.isSrc m := setFlag_idx g g.srcs n m false hn hm
theorem isDst_setDst (g : Grid) (n m : MIdx) (hn : g.On n) (hm : g.On m) :
    (g.setDst n).isDst m = if m = n then true else g.isDst m := setFlag_idx g g.dsts n m true hn hm
theorem isDst_resetDst (g : Grid) (n m : MIdx) (hn : g.On n) (hm : g.On m) :
    (g.resetDst n).isDst m = if m = n then false else g.isDst m := setFlag_idx g g.dsts n m false hn hm

/-! ## Pin map -/

theorem find_put (m : PinMap) (k k' : MIdx) (v : List RPin) :
    (m.put k v).find k' = if k' = k then some v else m.find k' := by
  simp only [PinMap.put, PinMap.find, PinMap.erase, List.find?_cons]
  by_cases h : k' = k
  · subst h; simp
  · have h' : ¬ k = k' := fun e => h e.symm
    simp only [h, if_false, beq_iff_eq, h', Bool.false_eq_true]
    rw [show ((k == k') = false) by simpa using h']
    simp only []
    congr 1
    rw [List.find?_filter]
    congr 1
    funext e
    by_cases he : e.1 = k'
    · simp [he, h]
    · simp [he]

theorem find_erase (m : PinMap) (k k' : MIdx) : (m.erase k).find k' = if k' = k then none else m.find k' := by
  simp only [PinMap.find, PinMap.erase, List.find?_filter]
  by_cases h : k' = k
  · subst h
    simp only [if_true, Option.map_eq_none_iff, List.find?_eq_none]
    intro e _; simp
  · simp only [h, if_false]
    congr 1; congr 1
    funext e
    by_cases he : e.1 = k'
    · simp [he, h]
    · simp [he]

theorem get_put (m : PinMap) (k k' : MIdx) (v : List RPin) : (m.put k v).get k' = if k' = k then v else m.get k' := by
  simp only [PinMap.get, find_put]; split <;> rfl
theorem get_erase (m : PinMap) (k k' : MIdx) : (m.erase k).get k' = if k' = k then [] else m.get k' := by
  simp only [PinMap.get, find_erase]; split <;> rfl

/-- structural invariant of the map together with the destination flags -/
structure MapInv (g0 : Grid) (m : PinMap) (g : Grid) : Prop where
  base : Base g0 g
  ne : ∀ e ∈ m, e.2 ≠ [] ∧ g0.On e.1
  dst : ∀ n, g0.On n → (g.isDst n = true ↔ m.get n ≠ [])

theorem mem_put {m : PinMap} {k v e} (h : e ∈ m.put k v) : e = (k, v) ∨ e ∈ m := by
  simp only [PinMap.put, PinMap.erase, List.mem_cons, List.mem_filter] at h
  exact h.imp id And.left

theorem prepAP_inv {g0 : Grid} {p : RPin} {s : PinMap × Grid} {ap : AP} (h : MapInv g0 s.1 s.2) (hon : g0.On ap.mi) :
    MapInv g0 (prepAP p s ap).1 (prepAP p s ap).2 := by
  have hne : (if p ∈ s.1.get ap.mi then s.1.get ap.mi else s.1.get ap.mi ++ [p]) ≠ [] := by
    split
    · rename_i h; exact List.ne_nil_of_mem h
    · simp
  refine ⟨h.base.setDst _, ?_, ?_⟩
  · intro e he
    rcases mem_put he with rfl | he
    · exact ⟨hne, hon⟩
    · exact h.ne e he
  · intro n hn
    simp only [prepAP]
    rw [isDst_setDst _ _ _ ((h.base.on _).2 hon) ((h.base.on _).2 hn), get_put]
    by_cases e : n = ap.mi
    · simp only [e, if_true, true_iff]; exact hne
    · simp only [e, if_false]; exact h.dst n hn

theorem prepAP_mem {p : RPin} {s : PinMap × Grid} {ap : AP} (n : MIdx) (q : RPin) :
    q ∈ (prepAP p s ap).1.get n ↔ q ∈ s.1.get n ∨ (n = ap.mi ∧ q = p) := by
  simp only [prepAP, get_put]
  by_cases e : n = ap.mi
  · subst e
    simp only [if_true, true_and]
    split
    · rename_i h
      constructor
      · exact Or.inl
      · rintro (h1 | rfl); exact h1; exact h
    · simp
  · simp [e]

theorem prepAP_src {p : RPin} {s : PinMap × Grid} {ap : AP} (n : MIdx) : (prepAP p s ap).2.isSrc n = s.2.isSrc n := rfl

theorem prep_pin {g0 : Grid} {p : RPin} : ∀ (aps : List AP) (s : PinMap × Grid), (∀ ap ∈ aps, g0.On ap.mi) → MapInv g0 s.1 s.2 →
    MapInv g0 (aps.foldl (prepAP p) s).1 (aps.foldl (prepAP p) s).2 ∧
    (∀ n q, q ∈ (aps.foldl (prepAP p) s).1.get n ↔ q ∈ s.1.get n ∨ (q = p ∧ ∃ ap ∈ aps, ap.mi = n)) ∧
    (∀ n, (aps.foldl (prepAP p) s).2.isSrc n = s.2.isSrc n)
  | [], s, _, h => ⟨h, by simp, fun _ => rfl⟩
  | a :: aps, s, hon, h => by
    obtain ⟨h1, h2, h3⟩ := prep_pin aps (prepAP p s a) (fun x hx => hon x (by simp [hx])) (prepAP_inv h (hon a (by simp)))
    refine ⟨h1, ?_, ?_⟩
    · intro n q
      rw [List.foldl_cons, h2, prepAP_mem]
      constructor
      · rintro ((h | ⟨rfl, rfl⟩) | ⟨rfl, ap, h4, h5⟩)
        · exact Or.inl h
        · exact Or.inr ⟨rfl, a, by simp, rfl⟩
        · exact Or.inr ⟨rfl, ap, by simp [h4], h5⟩
      · rintro (h | ⟨rfl, ap, h4, h5⟩)
        · exact Or.inl (Or.inl h)
        · rcases List.mem_cons.1 h4 with rfl | h4
          · exact Or.inl (Or.inr ⟨h5.symm, rfl⟩)
          · exact Or.inr ⟨rfl, ap, h4, h5⟩
    · intro n; rw [List.foldl_cons, h3]; rfl

theorem prep_all {g0 : Grid} : ∀ (pins : List RPin) (s : PinMap × Grid), (∀ p ∈ pins, ∀ ap ∈ p.aps, g0.On ap.mi) → MapInv g0 s.1 s.2 →
    MapInv g0 (pins.foldl (fun s p => p.aps.foldl (prepAP p) s) s).1 (pins.foldl (fun s p => p.aps.foldl (prepAP p) s) s).2 ∧
    (∀ n q, q ∈ (pins.foldl (fun s p => p.aps.foldl (prepAP p) s) s).1.get n ↔
      q ∈ s.1.get n ∨ (q ∈ pins ∧ ∃ ap ∈ q.aps, ap.mi = n)) ∧
    (∀ n, (pins.foldl (fun s p => p.aps.foldl (prepAP p) s) s).2.isSrc n = s.2.isSrc n)
  | [], s, _, h => ⟨h, by simp, fun _ => rfl⟩
  | p :: pins, s, hon, h => by
    obtain ⟨a1, a2, a3⟩ := prep_pin p.aps s (hon p (by simp)) h
    obtain ⟨h1, h2, h3⟩ := prep_all pins (p.aps.foldl (prepAP p) s) (fun x hx => hon x (by simp [hx])) a1
    refine ⟨h1, ?_, ?_⟩
    · intro n q
      rw [List.foldl_cons, h2, a2, List.mem_cons]
      constructor
      · rintro ((h | ⟨rfl, h⟩) | ⟨h, h'⟩)
        · exact Or.inl h
        · exact Or.inr ⟨Or.inl rfl, h⟩
        · exact Or.inr ⟨Or.inr h, h'⟩
      · rintro (h | ⟨rfl | h, h'⟩)
        · exact Or.inl (Or.inl h)
        · exact Or.inl (Or.inr ⟨rfl, h'⟩)
        · exact Or.inr ⟨h, h'⟩
    · intro n; rw [List.foldl_cons, h3, a3]

/-! ## Removing pins -/

theorem get_of_find {m : PinMap} {k l} (h : m.find k = some l) : m.get k = l := by simp [PinMap.get, h]

theorem dropAP_ok {g0 : Grid} {p : RPin} {s : PinMap × Grid} {ap : AP} (h : MapInv g0 s.1 s.2) (hon : g0.On ap.mi) :
    MapInv g0 (dropAP p s ap).1 (dropAP p s ap).2 ∧
    (∀ n q, q ∈ (dropAP p s ap).1.get n ↔ q ∈ s.1.get n ∧ ¬ (q = p ∧ ap.mi = n)) ∧
    (∀ n, (dropAP p s ap).2.isSrc n = s.2.isSrc n) := by
  have hon' := (h.base.on _).2 hon
  unfold dropAP
  split
  · rename_i hf
    refine ⟨h, ?_, fun _ => rfl⟩
    intro n q
    constructor
    · intro hq; refine ⟨hq, ?_⟩
      rintro ⟨rfl, rfl⟩
      simp [PinMap.get, hf] at hq
    · exact And.left
  · rename_i l hf
    have hl := get_of_find hf
    by_cases hp : p ∈ l
    · rw [if_pos hp]
      simp only []
      split
      · rename_i he
        refine ⟨⟨h.base.resetDst _, ?_, ?_⟩, ?_, fun _ => rfl⟩
        · intro e hm
          exact h.ne e (List.mem_filter.1 hm).1
        · intro n hn
          rw [isDst_resetDst _ _ _ hon' ((h.base.on _).2 hn), get_erase]
          by_cases e : n = ap.mi
          · simp [e]
          · simp only [e, if_false]; exact h.dst n hn
        · intro n q
          rw [get_erase]
          by_cases e : n = ap.mi
          · subst e
            rw [if_pos rfl, hl]
            simp only [List.not_mem_nil, false_iff]
            rintro ⟨hq, hne⟩
            have hne : q ≠ p := fun e => hne ⟨e, trivial⟩
            have : q ∈ l.filter (fun x => decide (x ≠ p)) := List.mem_filter.2 ⟨hq, by simpa using hne⟩
            rw [he] at this; simp at this
          · rw [if_neg e]
            constructor
            · intro hq; exact ⟨hq, fun hh => e hh.2.symm⟩
            · exact And.left
      · rename_i he
        refine ⟨⟨h.base, ?_, ?_⟩, ?_, fun _ => rfl⟩
        · intro e hm
          rcases mem_put hm with rfl | hm
          · exact ⟨he, hon⟩
          · exact h.ne e hm
        · intro n hn
          rw [get_put]
          by_cases e : n = ap.mi
          · subst e
            have : s.2.isDst ap.mi = true := (h.dst _ hon).2 (by rw [hl]; exact List.ne_nil_of_mem hp)
            rw [if_pos rfl, this]
            simpa using he
          · rw [if_neg e]; exact h.dst n hn
        · intro n q
          rw [get_put]
          by_cases e : n = ap.mi
          · subst e
            rw [if_pos rfl, hl, List.mem_filter]
            simp
          · rw [if_neg e]
            constructor
            · intro hq; exact ⟨hq, fun hh => e hh.2.symm⟩
            · exact And.left
    · rw [if_neg hp]
      refine ⟨h, ?_, fun _ => rfl⟩
      intro n q
      constructor
      · intro hq; refine ⟨hq, ?_⟩
        rintro ⟨rfl, rfl⟩
        rw [hl] at hq; exact hp hq
      · exact And.left

theorem drop_pin {g0 : Grid} {p : RPin} : ∀ (aps : List AP) (s : PinMap × Grid), (∀ ap ∈ aps, g0.On ap.mi) → MapInv g0 s.1 s.2 →
    MapInv g0 (aps.foldl (dropAP p) s).1 (aps.foldl (dropAP p) s).2 ∧
    (∀ n q, q ∈ (aps.foldl (dropAP p) s).1.get n ↔ q ∈ s.1.get n ∧ ¬ (q = p ∧ ∃ ap ∈ aps, ap.mi = n)) ∧
    (∀ n, (aps.foldl (dropAP p) s).2.isSrc n = s.2.isSrc n)
  | [], s, _, h => ⟨h, by simp, fun _ => rfl⟩
  | a :: aps, s, hon, h => by
    obtain ⟨b1, b2, b3⟩ := dropAP_ok (p := p) h (hon a (by simp))
    obtain ⟨h1, h2, h3⟩ := drop_pin aps (dropAP p s a) (fun x hx => hon x (by simp [hx])) b1
    refine ⟨h1, ?_, ?_⟩
    · intro n q
      rw [List.foldl_cons, h2, b2]
      constructor
      · rintro ⟨⟨h, h4⟩, h5⟩
        refine ⟨h, ?_⟩
        rintro ⟨rfl, ap, h6, h7⟩
        rcases List.mem_cons.1 h6 with rfl | h6
        · exact h4 ⟨rfl, h7⟩
        · exact h5 ⟨rfl, ap, h6, h7⟩
      · rintro ⟨h, h4⟩
        exact ⟨⟨h, fun hh => h4 ⟨hh.1, a, by simp, hh.2⟩⟩, fun ⟨h5, ap, h6, h7⟩ => h4 ⟨h5, ap, by simp [h6], h7⟩⟩
    · intro n; rw [List.foldl_cons, h3, b3]

theorem drop_all {g0 : Grid} : ∀ (tmp : List RPin) (s : PinMap × Grid), (∀ p ∈ tmp, ∀ ap ∈ p.aps, g0.On ap.mi) → MapInv g0 s.1 s.2 →
    MapInv g0 (tmp.foldl (fun r p => p.aps.foldl (dropAP p) r) s).1 (tmp.foldl (fun r p => p.aps.foldl (dropAP p) r) s).2 ∧
    (∀ n q, q ∈ (tmp.foldl (fun r p => p.aps.foldl (dropAP p) r) s).1.get n ↔
      q ∈ s.1.get n ∧ ¬ (q ∈ tmp ∧ ∃ ap ∈ q.aps, ap.mi = n)) ∧
    (∀ n, (tmp.foldl (fun r p => p.aps.foldl (dropAP p) r) s).2.isSrc n = s.2.isSrc n)
  | [], s, _, h => ⟨h, by simp, fun _ => rfl⟩
  | p :: tmp, s, hon, h => by
    obtain ⟨a1, a2, a3⟩ := drop_pin (p := p) p.aps s (hon p (by simp)) h
    obtain ⟨h1, h2, h3⟩ := drop_all tmp (p.aps.foldl (dropAP p) s) (fun x hx => hon x (by simp [hx])) a1
    refine ⟨h1, ?_, ?_⟩
    · intro n q
      rw [List.foldl_cons, h2, a2, List.mem_cons]
      constructor
      · rintro ⟨⟨h, h4⟩, h5⟩
        refine ⟨h, ?_⟩
        rintro ⟨rfl | h6, h7⟩
        · exact h4 ⟨rfl, h7⟩
        · exact h5 ⟨h6, h7⟩
      · rintro ⟨h, h4⟩
        exact ⟨⟨h, fun hh => h4 ⟨Or.inl hh.1, hh.1 ▸ hh.2⟩⟩, fun hh => h4 ⟨Or.inr hh.1, hh.2⟩⟩
    · intro n; rw [List.foldl_cons, h3, a3]

/-! ## Source selection -/

theorem srcAP_eq (p : RPin) (s : PinMap × Grid × List MIdx) (ap : AP) :
    srcAP p s ap = 
      ((dropAP p (s.1, if p ∈ s.1.get ap.mi then s.2.1.setSrc ap.mi else s.2.1) ap).1,
       (dropAP p (s.1, if p ∈ s.1.get ap.mi then s.2.1.setSrc ap.mi else s.2.1) ap).2, s.2.2 ++ [ap.mi]) := by
  unfold srcAP dropAP
  cases hf : s.1.find ap.mi with
  | none => simp [PinMap.get, hf]
  | some l =>
    have hl := get_of_find hf
    rw [hl]
    simp only []
    by_cases hp : p ∈ l
    · simp only [hp, if_true]
      split <;> rfl
    · simp only [hp, if_false]

theorem src_pin {g0 : Grid} {p : RPin} : ∀ (aps : List AP) (m : PinMap) (g : Grid) (c : List MIdx), (∀ ap ∈ aps, g0.On ap.mi) → MapInv g0 m g →
    (∀ ap ∈ aps, p ∈ m.get ap.mi ∨ g.isSrc ap.mi = true) →
    MapInv g0 (aps.foldl (srcAP p) (m, g, c)).1 (aps.foldl (srcAP p) (m, g, c)).2.1 ∧
    (∀ n q, q ∈ (aps.foldl (srcAP p) (m, g, c)).1.get n ↔ q ∈ m.get n ∧ ¬ (q = p ∧ ∃ ap ∈ aps, ap.mi = n)) ∧
    (∀ n, g0.On n → ((aps.foldl (srcAP p) (m, g, c)).2.1.isSrc n = true ↔ g.isSrc n = true ∨ ∃ ap ∈ aps, ap.mi = n)) ∧
    (aps.foldl (srcAP p) (m, g, c)).2.2 = c ++ aps.map (·.mi)
  | [], m, g, c, _, h, _ => ⟨h, by simp, by simp, by simp⟩
  | a :: aps, m, g, c, hon, h, hsrc => by
    have hona := hon a (by simp)
    have hona' := (h.base.on _).2 hona
    let g' := if p ∈ m.get a.mi then g.setSrc a.mi else g
    have hg' : MapInv g0 m g' := by
      by_cases hp : p ∈ m.get a.mi
      · simp only [g', hp, if_true]; exact ⟨h.base.setSrc _, h.ne, h.dst⟩
      · simp only [g', hp, if_false]; exact h
    have hs' : ∀ n, g0.On n → (g'.isSrc n = true ↔ g.isSrc n = true ∨ a.mi = n) := by
      intro n hn
      by_cases hp : p ∈ m.get a.mi
      · simp only [g', hp, if_true]
        rw [isSrc_setSrc _ _ _ hona' ((h.base.on _).2 hn)]
        by_cases e : n = a.mi
        · simp [e]
        · have e' : ¬ a.mi = n := fun x => e x.symm
          simp [e, e']
      · simp only [g', hp, if_false]
        have := (hsrc a (by simp)).resolve_left hp
        constructor
        · exact Or.inl
        · rintro (h | rfl); exact h; exact this
    obtain ⟨b1, b2, b3⟩ := dropAP_ok (p := p) (s := (m, g')) hg' hona
    have hstep : srcAP p (m, g, c) a = ((dropAP p (m, g') a).1, (dropAP p (m, g') a).2, c ++ [a.mi]) := srcAP_eq p (m, g, c) a
    obtain ⟨h1, h2, h3, h4⟩ := src_pin aps (dropAP p (m, g') a).1 (dropAP p (m, g') a).2 (c ++ [a.mi])
      (fun x hx => hon x (by simp [hx])) b1 (by
        intro ap hap
        by_cases e : a.mi = ap.mi
        · right; rw [b3]
          have := (hs' ap.mi (hon ap (by simp [hap]))).2 (Or.inr e)
          exact this
        · rcases hsrc ap (by simp [hap]) with h5 | h5
          · left; rw [b2]; exact ⟨h5, fun hh => e hh.2⟩
          · right; rw [b3]; exact (hs' ap.mi (hon ap (by simp [hap]))).2 (Or.inl h5))
    rw [List.foldl_cons, hstep]
    refine ⟨h1, ?_, ?_, ?_⟩
    · intro n q
      rw [h2, b2]
      constructor
      · rintro ⟨⟨h, h4⟩, h5⟩
        refine ⟨h, ?_⟩
        rintro ⟨rfl, ap, h6, h7⟩
        rcases List.mem_cons.1 h6 with rfl | h6
        · exact h4 ⟨rfl, h7⟩
        · exact h5 ⟨rfl, ap, h6, h7⟩
      · rintro ⟨h, h4⟩
        exact ⟨⟨h, fun hh => h4 ⟨hh.1, a, by simp, hh.2⟩⟩, fun ⟨h5, ap, h6, h7⟩ => h4 ⟨h5, ap, by simp [h6], h7⟩⟩
    · intro n hn
      rw [h3 n hn, b3]
      have := hs' n hn
      show g'.isSrc n = true ∨ _ ↔ _
      rw [this]
      simp only [List.mem_cons, exists_eq_or_imp, or_assoc]
    · rw [h4]; simp

theorem farmost_fold (zH : ZHeights) (c : Int × Int × Int) (all : List RPin) : ∀ (pins : List RPin) (s : Int × Option RPin),
    (∀ p ∈ pins, p ∈ all) → (s.2 = none → s.1 = 0) → (∀ p, s.2 = some p → p ∈ all) →
    let r := pins.foldl (fun s p => p.aps.foldl (fun s ap =>
      if apDist zH c ap ≥ s.1 then (apDist zH c ap, some p) else s) s) s
    (∀ p, r.2 = some p → p ∈ all) ∧ ((s.2 ≠ none ∨ ∃ p ∈ pins, p.aps ≠ []) → r.2 ≠ none)
  | [], s, _, h1, h2 => ⟨h2, by simp⟩
  | p :: pins, s, hall, h1, h2 => by
    have inner : ∀ (aps : List AP) (s : Int × Option RPin), (s.2 = none → s.1 = 0) → (∀ p, s.2 = some p → p ∈ all) →
        let r := aps.foldl (fun s ap => if apDist zH c ap ≥ s.1 then (apDist zH c ap, some p) else s) s
        (r.2 = none → r.1 = 0) ∧ (∀ p, r.2 = some p → p ∈ all) ∧ ((s.2 ≠ none ∨ aps ≠ []) → r.2 ≠ none) := by
      intro aps
      induction aps with
      | nil => intro s a b; exact ⟨a, b, by simp⟩
      | cons x aps ih =>
        intro s a b
        have hd : 0 ≤ apDist zH c x := by
          unfold apDist; (repeat' split) <;> omega
        simp only [List.foldl_cons]
        by_cases hc : apDist zH c x ≥ s.1
        · rw [if_pos hc]
          obtain ⟨i1, i2, i3⟩ := ih (apDist zH c x, some p) (by simp)
            (by intro q hq; simp at hq; subst hq; exact hall _ (by simp))
          exact ⟨i1, i2, fun _ => i3 (Or.inl (by simp))⟩
        · rw [if_neg hc]
          obtain ⟨i1, i2, i3⟩ := ih s a b
          refine ⟨i1, i2, fun _ => i3 (Or.inl ?_)⟩
          intro hn
          have := a hn
          omega
    obtain ⟨i1, i2, i3⟩ := inner p.aps s h1 h2
    obtain ⟨j1, j2⟩ := farmost_fold zH c all pins _ (fun x hx => hall x (by simp [hx])) i1 i2
    refine ⟨j1, ?_⟩
    rintro (h | ⟨q, hq, hne⟩)
    · exact j2 (Or.inl (i3 (Or.inl h)))
    · rcases List.mem_cons.1 hq with rfl | hq
      · exact j2 (Or.inl (i3 (Or.inr hne)))
      · exact j2 (Or.inr ⟨q, hq, hne⟩)

theorem centerSums_count (zH : ZHeights) : ∀ (pins : List RPin) (s : Int × Int × Int × Int), 0 ≤ s.2.2.2 →
    (0 < s.2.2.2 ∨ ∃ p ∈ pins, p.aps ≠ []) →
    0 < (pins.foldl (centerStep zH) s).2.2.2
  | [], s, h0, h => by
    rcases h with h | ⟨p, hp, _⟩
    · exact h
    · simp at hp
  | p :: pins, s, h0, h => by
    rw [List.foldl_cons]
    unfold centerStep
    cases ha : p.aps with
    | nil =>
      refine centerSums_count zH pins _ h0 ?_
      rcases h with h | ⟨q, hq, hne⟩
      · exact Or.inl h
      · rcases List.mem_cons.1 hq with rfl | hq
        · exact absurd ha hne
        · exact Or.inr ⟨q, hq, hne⟩
    | cons ap t =>
      refine centerSums_count zH pins _ ?_ (Or.inl ?_)
      · show 0 ≤ s.2.2.2 + 1; omega
      · show 0 < s.2.2.2 + 1; omega

/-! ## Next destination -/

theorem loc_bound (g : Grid) (zH : ZHeights) (h : SmallCoords g zH) (n : MIdx) :
    -2^28 ≤ (g.loc n).x ∧ (g.loc n).x ≤ 2^28 ∧ -2^28 ≤ (g.loc n).y ∧ (g.loc n).y ≤ 2^28 := by
  unfold Grid.loc Grid.point
  cases hx : g.xs[n.x.toNat]? with
  | none => simp
  | some x =>
    cases hy : g.ys[n.y.toNat]? with
    | none => simp
    | some y =>
      have h1 := h.1 x (List.mem_of_getElem? hx)
      have h2 := h.2.1 y (List.mem_of_getElem? hy)
      exact ⟨h1.1, h1.2, h2.1, h2.2⟩

theorem nextDst_some (g : Grid) (zH : ZHeights) (cc1 cc2 : MIdx) (m : PinMap) (hs : SmallCoords g zH)
    (hne : ∀ e ∈ m, e.2 ≠ []) (hm : m ≠ []) : ∃ p, nextDst g zH cc1 cc2 m = some p := by
  have key : ∀ (m : PinMap) (s : Int × Option RPin), (∀ e ∈ m, e.2 ≠ []) → (s.2 = none → s.1 = 2147483647) →
      (s.2 ≠ none ∨ m ≠ []) →
      (m.foldl (fun s e =>
        if max (max ((g.loc cc1).x - (g.loc e.1).x) ((g.loc e.1).x - (g.loc cc2).x)) 0 + max (max ((g.loc cc1).y - (g.loc e.1).y) ((g.loc e.1).y - (g.loc cc2).y)) 0 +
          max (max (zH cc1.z - zH e.1.z) (zH e.1.z - zH cc2.z)) 0 < s.1 then
          (max (max ((g.loc cc1).x - (g.loc e.1).x) ((g.loc e.1).x - (g.loc cc2).x)) 0 + max (max ((g.loc cc1).y - (g.loc e.1).y) ((g.loc e.1).y - (g.loc cc2).y)) 0 +
          max (max (zH cc1.z - zH e.1.z) (zH e.1.z - zH cc2.z)) 0, e.2.head?) else s) s).2 ≠ none := by
    intro m
    induction m with
    | nil => intro s _ _ h; simpa using h
    | cons e m ih =>
      intro s h1 h2 _
      rw [List.foldl_cons]
      split
      · apply ih _ (fun x hx => h1 x (by simp [hx]))
        · intro hh
          have := h1 e (by simp)
          simp only [List.head?_eq_none_iff] at hh
          exact absurd hh this
        · left
          have := h1 e (by simp)
          simpa using this
      · rename_i hc
        apply ih s (fun x hx => h1 x (by simp [hx])) h2
        left
        intro hn
        rw [h2 hn] at hc
        apply hc
        have a := loc_bound g zH hs cc1
        have b := loc_bound g zH hs cc2
        have c := loc_bound g zH hs e.1
        have d1 := hs.2.2 cc1.z
        have d2 := hs.2.2 cc2.z
        have d3 := hs.2.2 e.1.z
        have p28 : (2:Int)^28 = 268435456 := by decide
        rw [p28] at a b c d1 d2 d3
        omega
  have := key m (2147483647, none) hne (fun _ => rfl) (Or.inr hm)
  rw [← Option.isSome_iff_exists, Option.isSome_iff_ne_none]
  exact this

end TR
