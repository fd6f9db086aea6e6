import Verif.Read.Accept
namespace TR

/-! ### specification -/

/-- the item stands in the list before the next LAYER -/
def BeforeLayer (items : List LefItem) (x : LefItem) : Prop :=
  ∃ mid post, items = mid ++ x :: post ∧ ∀ m, LefItem.layer m ∉ mid

/-- the item stands under `LAYER n`: that is the last LAYER before it -/
def UnderLayer (items : List LefItem) (n : String) (x : LefItem) : Prop :=
  ∃ pre rest, items = pre ++ .layer n :: rest ∧ BeforeLayer rest x

/-- the shape of an item on a layer -/
inductive FigIs (l : Int) : LefItem → PinFig → Prop
  | rect {xl yl xh yh : Int} : FigIs l (.rect xl yl xh yh) (.rect l (Box.mk4 xl yl xh yh))
  | poly {pts : List Point} : FigIs l (.poly pts) (.poly l pts)

/-- the shapes of a geometry: those under a layer the technology knows -/
def FigsAre (layerNum : String → Option Int) (items : List LefItem) (fs : List PinFig) : Prop :=
  ∀ f, f ∈ fs ↔ ∃ x n l, UnderLayer items n x ∧ layerNum n = some l ∧ FigIs l x f

/-- a cell is the one of the file: its terminals and obstructions in order, with their shapes -/
structure LefCellIs (layerNum : String → Option Int) (m : LefMacro) (c : RCell) : Prop where
  name : c.name = m.name
  bounds : c.bounds = [lefBoundary m.origin m.size]
  terms : c.terms.length = m.pins.length
  term : ∀ (k : Nat) (t : RTerm) (p : LefPin), c.terms[k]? = some t → m.pins[k]? = some p →
    t.name = p.name ∧ UseIs p.use t.use ∧ t.ports.length = p.ports.length ∧
    ∀ (i : Nat) (fs : List PinFig) (it : List LefItem), t.ports[i]? = some fs → p.ports[i]? = some it → FigsAre layerNum it fs
  obs : c.obs.length = m.obs.length
  ob : ∀ (i : Nat) (fs : List PinFig) (it : List LefItem), c.obs[i]? = some fs → m.obs[i]? = some it → FigsAre layerNum it fs

/-! ### proofs -/

theorem before_cons (y x : LefItem) (items : List LefItem) :
    BeforeLayer (y :: items) x ↔ x = y ∨ ((∀ m, y ≠ .layer m) ∧ BeforeLayer items x) := by
  constructor
  · rintro ⟨mid, post, h, hm⟩
    cases mid with
    | nil => simp only [List.nil_append, List.cons.injEq] at h; exact Or.inl h.1.symm
    | cons z mid =>
      simp only [List.cons_append, List.cons.injEq] at h
      refine Or.inr ⟨fun m e => hm m (by rw [← h.1, e]; exact List.mem_cons_self), mid, post, h.2, ?_⟩
      intro m hmm; exact hm m (List.mem_cons_of_mem _ hmm)
  · rintro (rfl | ⟨hy, mid, post, rfl, hm⟩)
    · exact ⟨[], items, rfl, by simp⟩
    · refine ⟨y :: mid, post, rfl, ?_⟩
      intro m hmm
      rw [List.mem_cons] at hmm
      rcases hmm with h | h
      · exact hy m h.symm
      · exact hm m h

theorem under_cons (y x : LefItem) (n : String) (items : List LefItem) :
    UnderLayer (y :: items) n x ↔ (y = .layer n ∧ BeforeLayer items x) ∨ UnderLayer items n x := by
  constructor
  · rintro ⟨pre, rest, h, hb⟩
    cases pre with
    | nil => simp only [List.nil_append, List.cons.injEq] at h; rw [h.2]; exact Or.inl ⟨h.1, hb⟩
    | cons z pre =>
      simp only [List.cons_append, List.cons.injEq] at h
      exact Or.inr ⟨pre, rest, h.2, hb⟩
  · rintro (⟨rfl, hb⟩ | ⟨pre, rest, rfl, hb⟩)
    · exact ⟨[], items, rfl, hb⟩
    · exact ⟨y :: pre, rest, rfl, hb⟩

theorem mem_lefFigs (f : String → Option Int) (cur : Option Int) (items : List LefItem) (g : PinFig) :
    g ∈ lefFigs f cur items ↔ ∃ x l, FigIs l x g ∧
      ((cur = some l ∧ BeforeLayer items x) ∨ ∃ n, UnderLayer items n x ∧ f n = some l) := by
  induction items generalizing cur with
  | nil =>
    have e : lefFigs f cur [] = [] := by cases cur <;> rfl
    rw [e]
    simp only [List.not_mem_nil, false_iff]
    rintro ⟨x, l, _, ⟨_, mid, post, h, _⟩ | ⟨n, ⟨pre, rest, h, _⟩, _⟩⟩
    · cases mid <;> simp at h
    · cases pre <;> simp at h
  | cons y items ih =>
    have notLayer : ∀ {l : Int} {x : LefItem}, FigIs l x g → ∀ n, x ≠ .layer n := by
      intro l x hx n e; subst e; cases hx
    have skip : (∀ m, y ≠ .layer m) → (∀ l, ¬ FigIs l y g ∨ cur ≠ some l) →
        ((∃ x l, FigIs l x g ∧ ((cur = some l ∧ BeforeLayer (y :: items) x) ∨ ∃ n, UnderLayer (y :: items) n x ∧ f n = some l)) ↔
         (∃ x l, FigIs l x g ∧ ((cur = some l ∧ BeforeLayer items x) ∨ ∃ n, UnderLayer items n x ∧ f n = some l))) := by
      intro hy hf
      constructor
      · rintro ⟨x, l, hx, ⟨hc, hb⟩ | ⟨n, hu, hn⟩⟩
        · rcases (before_cons y x items).1 hb with rfl | ⟨_, hb⟩
          · rcases hf l with h | h
            · exact absurd hx h
            · exact absurd hc h
          · exact ⟨x, l, hx, Or.inl ⟨hc, hb⟩⟩
        · rcases (under_cons y x n items).1 hu with ⟨h, _⟩ | hu
          · exact absurd h (hy n)
          · exact ⟨x, l, hx, Or.inr ⟨n, hu, hn⟩⟩
      · rintro ⟨x, l, hx, ⟨hc, hb⟩ | ⟨n, hu, hn⟩⟩
        · exact ⟨x, l, hx, Or.inl ⟨hc, (before_cons y x items).2 (Or.inr ⟨hy, hb⟩)⟩⟩
        · exact ⟨x, l, hx, Or.inr ⟨n, (under_cons y x n items).2 (Or.inr hu), hn⟩⟩
    have take : ∀ l, cur = some l → (∀ m, y ≠ .layer m) → ∀ g0, (∀ k, FigIs k y g ↔ (k = l ∧ g = g0) ∨ (k ≠ l ∧ FigIs k y g)) →
        ((∃ x l, FigIs l x g ∧ ((cur = some l ∧ BeforeLayer (y :: items) x) ∨ ∃ n, UnderLayer (y :: items) n x ∧ f n = some l)) ↔
         g = g0 ∨ (∃ x l, FigIs l x g ∧ ((cur = some l ∧ BeforeLayer items x) ∨ ∃ n, UnderLayer items n x ∧ f n = some l))) := by
      intro l hl hy g0 hg
      constructor
      · rintro ⟨x, k, hx, ⟨hc, hb⟩ | ⟨n, hu, hn⟩⟩
        · rcases (before_cons y x items).1 hb with rfl | ⟨_, hb⟩
          · rw [hl] at hc; simp only [Option.some.injEq] at hc
            rcases (hg k).1 hx with h | h
            · exact Or.inl h.2
            · exact absurd hc.symm h.1
          · exact Or.inr ⟨x, k, hx, Or.inl ⟨hc, hb⟩⟩
        · rcases (under_cons y x n items).1 hu with ⟨h, _⟩ | hu
          · exact absurd h (hy n)
          · exact Or.inr ⟨x, k, hx, Or.inr ⟨n, hu, hn⟩⟩
      · rintro (h | ⟨x, k, hx, ⟨hc, hb⟩ | ⟨n, hu, hn⟩⟩)
        · exact ⟨y, l, (hg l).2 (Or.inl ⟨rfl, h⟩), Or.inl ⟨hl, (before_cons y y items).2 (Or.inl rfl)⟩⟩
        · exact ⟨x, k, hx, Or.inl ⟨hc, (before_cons y x items).2 (Or.inr ⟨hy, hb⟩)⟩⟩
        · exact ⟨x, k, hx, Or.inr ⟨n, (under_cons y x n items).2 (Or.inr hu), hn⟩⟩
    cases y with
    | layer n =>
      have e : lefFigs f cur (.layer n :: items) = lefFigs f (f n) items := by cases cur <;> rfl
      rw [e, ih]
      constructor
      · rintro ⟨x, l, hx, ⟨hc, hb⟩ | ⟨m, hu, hm⟩⟩
        · exact ⟨x, l, hx, Or.inr ⟨n, (under_cons _ x n items).2 (Or.inl ⟨rfl, hb⟩), hc⟩⟩
        · exact ⟨x, l, hx, Or.inr ⟨m, (under_cons _ x m items).2 (Or.inr hu), hm⟩⟩
      · rintro ⟨x, l, hx, ⟨hc, hb⟩ | ⟨m, hu, hm⟩⟩
        · rcases (before_cons _ x items).1 hb with h | ⟨h, _⟩
          · exact absurd h (notLayer hx n)
          · exact absurd rfl (h n)
        · rcases (under_cons _ x m items).1 hu with ⟨h, hb⟩ | hu
          · cases h; exact ⟨x, l, hx, Or.inl ⟨hm, hb⟩⟩
          · exact ⟨x, l, hx, Or.inr ⟨m, hu, hm⟩⟩
    | rect a b c d =>
      cases cur with
      | none =>
        have e : lefFigs f none (.rect a b c d :: items) = lefFigs f none items := rfl
        rw [e, ih, skip (by intro m h; cases h) (fun l => Or.inr (by intro h; cases h))]
      | some l =>
        have e : lefFigs f (some l) (.rect a b c d :: items) = .rect l (Box.mk4 a b c d) :: lefFigs f (some l) items := rfl
        rw [e, List.mem_cons, ih, take l rfl (by intro m h; cases h) (.rect l (Box.mk4 a b c d))]
        intro k
        constructor
        · intro h
          by_cases hk : k = l
          · subst hk; cases h; exact Or.inl ⟨rfl, rfl⟩
          · exact Or.inr ⟨hk, h⟩
        · rintro (⟨rfl, rfl⟩ | ⟨_, h⟩)
          · exact .rect
          · exact h
    | poly pts =>
      cases cur with
      | none =>
        have e : lefFigs f none (.poly pts :: items) = lefFigs f none items := rfl
        rw [e, ih, skip (by intro m h; cases h) (fun l => Or.inr (by intro h; cases h))]
      | some l =>
        have e : lefFigs f (some l) (.poly pts :: items) = .poly l pts :: lefFigs f (some l) items := rfl
        rw [e, List.mem_cons, ih, take l rfl (by intro m h; cases h) (.poly l pts)]
        intro k
        constructor
        · intro h
          by_cases hk : k = l
          · subst hk; cases h; exact Or.inl ⟨rfl, rfl⟩
          · exact Or.inr ⟨hk, h⟩
        · rintro (⟨rfl, rfl⟩ | ⟨_, h⟩)
          · exact .poly
          · exact h
    | other =>
      have e : lefFigs f cur (.other :: items) = lefFigs f cur items := by cases cur <;> rfl
      rw [e, ih, skip (by intro m h; cases h) (fun l => Or.inl (by intro h; cases h))]

theorem lefFigs_are (f : String → Option Int) (items : List LefItem) : FigsAre f items (lefFigs f none items) := by
  intro g
  rw [mem_lefFigs]
  constructor
  · rintro ⟨x, l, hx, ⟨h, _⟩ | ⟨n, hu, hn⟩⟩
    · cases h
    · exact ⟨x, n, l, hu, hn, hx⟩
  · rintro ⟨x, n, l, hu, hn, hx⟩
    exact ⟨x, l, hx, Or.inr ⟨n, hu, hn⟩⟩

theorem map_figs (f : String → Option Int) (its : List (List LefItem)) (i : Nat) (fs : List PinFig) (it : List LefItem)
    (h1 : (its.map (lefFigs f none))[i]? = some fs) (h2 : its[i]? = some it) : FigsAre f it fs := by
  rw [List.getElem?_map, h2] at h1
  simp only [Option.map_some, Option.some.injEq] at h1
  subst h1; exact lefFigs_are f it

theorem readLefPins_all (f : String → Option Int) (ps : List LefPin) (ts : List RTerm) (h : readLefPins f ps = some ts) :
    Pointwise (fun _ t p => readLefPin f p = some t) ts ps := by
  induction ps generalizing ts with
  | nil => simp only [readLefPins, Option.some.injEq] at h; subst h; exact Pointwise.nil _
  | cons p ps ih =>
    simp only [readLefPins, Option.bind_eq_some_iff, Option.map_eq_some_iff] at h
    obtain ⟨t, ht, ts', h', rfl⟩ := h
    have := ih ts' h'
    refine ⟨by simp [this.1], ?_⟩
    intro i a b ha hb
    cases i with
    | zero =>
      simp only [List.getElem?_cons_zero, Option.some.injEq] at ha hb
      subst ha; subst hb; exact ht
    | succ i => exact this.2 i a b (by simpa using ha) (by simpa using hb)

theorem readLefPins_some (f : String → Option Int) (ps : List LefPin) :
    (∃ ts, readLefPins f ps = some ts) ↔ ∀ p ∈ ps, ∃ k, useKind p.use = some k := by
  induction ps with
  | nil => simp [readLefPins]
  | cons p ps ih =>
    simp only [List.mem_cons, forall_eq_or_imp, ← ih, readLefPins, readLefPin, Option.bind_eq_some_iff,
      Option.map_eq_some_iff]
    constructor
    · rintro ⟨_, _, ⟨k, hk, _⟩, ts, hts, _⟩; exact ⟨⟨k, hk⟩, ts, hts⟩
    · rintro ⟨⟨k, hk⟩, ts, hts⟩; exact ⟨_, _, ⟨k, hk, rfl⟩, ts, hts, rfl⟩

end TR
