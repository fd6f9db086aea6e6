import Verif.Astar.Abs
/-! Invariants of the abstract search: simple walks, termination, completeness. -/
namespace TR.Abs

theorem nbr_opp (n : MIdx) (d : Dir) : (n.nbr d).nbr d.opp = n := by
  rcases n with ⟨a, b, c⟩
  cases d <;> simp [MIdx.nbr, Dir.opp, Dir.delta] <;> omega

theorem opp_opp (d : Dir) : d.opp.opp = d := by cases d <;> rfl

theorem opp_unknown (d : Dir) : d.opp = .UNKNOWN ↔ d = .UNKNOWN := by cases d <;> simp [Dir.opp]

theorem nbr_inj (n : MIdx) (d e : Dir) (h : n.nbr d = n.nbr e) : d = e := by
  rcases n with ⟨a, b, c⟩
  simp only [MIdx.nbr, MIdx.mk.injEq] at h
  obtain ⟨h1, h2, h3⟩ := h
  cases d <;> cases e <;> simp only [Dir.delta] at h1 h2 h3 <;> first | rfl | omega

theorem nbr_ne (n : MIdx) (d : Dir) (h : d ≠ .UNKNOWN) : n.nbr d ≠ n := by
  intro e
  apply h
  apply nbr_inj n
  rw [e]
  rcases n with ⟨a, b, c⟩
  simp [MIdx.nbr, Dir.delta]

theorem back_push (n : MIdx) (d : Dir) : back (n.nbr d) d = n := nbr_opp n d

theorem nbr_back (n : MIdx) (d : Dir) : (back n d).nbr d = n := by
  have := nbr_opp n d.opp
  rwa [opp_opp] at this

theorem mem_allDirs (d : Dir) : d ∈ allDirs ↔ d ≠ .UNKNOWN := by cases d <;> simp [allDirs]

/-! ## One expansion -/

def tailOK (p : MIdx → Dir) (e : Ent) : Prop :=
  e.d2 = .UNKNOWN ∨ p (back e.n e.d1) = .UNKNOWN ∨ p (back e.n e.d1) = e.d2

theorem expandable_setPrev (V : View) (p : MIdx → Dir) (e : Ent) (d x : Dir) :
    expandable V (setPrev p (back e.n e.d1) x) e d ↔ expandable V p e d := by
  unfold expandable setPrev
  constructor
  · rintro ⟨h1, h2, h3, h4⟩
    refine ⟨h1, h2, ?_, h4⟩
    split at h3
    · rename_i hh
      exact absurd (nbr_inj _ _ _ hh) (fun hh => h4 (by rw [hh, opp_opp]))
    · exact h3
  · rintro ⟨h1, h2, h3, h4⟩
    refine ⟨h1, h2, ?_, h4⟩
    split
    · rename_i hh
      exact absurd (nbr_inj _ _ _ hh) (fun hh => h4 (by rw [hh, opp_opp]))
    · exact h3

theorem setPrev_setPrev (p v x) : setPrev (setPrev p v x) v x = setPrev p v x := by
  funext m; simp only [setPrev]; split <;> rfl

theorem fold_fail (V : View) (e : Ent) (ds : List Dir) : ∀ s : St, ¬ tailOK s.prev e →
    ds.foldl (expandDir V e) s = s := by
  induction ds with
  | nil => intro s _; rfl
  | cons d ds ih =>
    intro s h
    have : expandDir V e s d = s := by
      simp only [tailOK, not_or] at h
      simp [expandDir, h.1, h.2.1, h.2.2]
    rw [List.foldl_cons, this, ih s h]

def newPrev (V : View) (p : MIdx → Dir) (e : Ent) (ds : List Dir) : MIdx → Dir :=
  if e.d2 = .UNKNOWN ∨ ds.filter (fun d => decide (expandable V p e d)) = [] then p
  else setPrev p (back e.n e.d1) e.d2

theorem fold_ok (V : View) (e : Ent) (ds : List Dir) : ∀ s : St, tailOK s.prev e →
    ds.foldl (expandDir V e) s =
      ⟨s.q ++ (ds.filter (fun d => decide (expandable V s.prev e d))).map (push e), newPrev V s.prev e ds⟩ := by
  induction ds with
  | nil => intro s _; simp [newPrev]
  | cons d ds ih =>
    intro s h
    rw [List.foldl_cons]
    by_cases hx : expandable V s.prev e d
    · by_cases h2 : e.d2 = .UNKNOWN
      · have : expandDir V e s d = ⟨s.q ++ [push e d], s.prev⟩ := by simp [expandDir, hx, h2]
        rw [this, ih ⟨s.q ++ [push e d], s.prev⟩ h]
        simp [newPrev, h2, hx]
      · have ht : s.prev (back e.n e.d1) = .UNKNOWN ∨ s.prev (back e.n e.d1) = e.d2 := by
          rcases h with h | h
          · exact absurd h h2
          · exact h
        have : expandDir V e s d = ⟨s.q ++ [push e d], setPrev s.prev (back e.n e.d1) e.d2⟩ := by
          simp [expandDir, hx, h2, ht]
        rw [this, ih _ (Or.inr (Or.inr (by simp [setPrev])))]
        simp only [expandable_setPrev]
        have e1 : newPrev V (setPrev s.prev (back e.n e.d1) e.d2) e ds = setPrev s.prev (back e.n e.d1) e.d2 := by
          simp only [newPrev]
          split
          · rfl
          · rw [setPrev_setPrev]
        have e2 : newPrev V s.prev e (d :: ds) = setPrev s.prev (back e.n e.d1) e.d2 := by
          simp [newPrev, h2, hx]
        rw [e1, e2]
        simp [hx]
    · have : expandDir V e s d = s := by simp [expandDir, hx]
      rw [this, ih s h]
      simp [newPrev, hx]

/-! ## Walks -/

/-- every node but the last (a source) carries a label pointing to its successor in the list -/
inductive Chain (V : View) (p : MIdx → Dir) : List MIdx → Prop
  | root (r) : V.src r = true → Chain V p [r]
  | step (v d w) : V.src v = false → V.edge (back v d) d = true → p v = d → d ≠ .UNKNOWN →
      Chain V p (back v d :: w) → Chain V p (v :: back v d :: w)

inductive Shape (V : View) (p : MIdx → Dir) : Ent → Prop
  | root (n) : V.src n = true → Shape V p ⟨n, .UNKNOWN, .UNKNOWN, [n]⟩
  | one (n d) : d ≠ .UNKNOWN → V.src n = false → V.edge (back n d) d = true → V.src (back n d) = true →
      Shape V p ⟨n, d, .UNKNOWN, [n, back n d]⟩
  | two (n d1 d2 t) : d1 ≠ .UNKNOWN → d2 ≠ .UNKNOWN → V.src n = false → V.src (back n d1) = false →
      V.edge (back n d1) d1 = true → V.edge (back (back n d1) d2) d2 = true →
      Chain V p (back (back n d1) d2 :: t) →
      Shape V p ⟨n, d1, d2, n :: back n d1 :: back (back n d1) d2 :: t⟩

/-- labels only grow -/
def Le (p p' : MIdx → Dir) : Prop := ∀ v, p v ≠ .UNKNOWN → p' v = p v

theorem Chain.mono {V p p'} (h : Le p p') {w} (c : Chain V p w) : Chain V p' w := by
  induction c with
  | root r hr => exact .root r hr
  | step v d w h1 h2 h3 h4 _ ih => exact .step v d w h1 h2 (by rw [h v (by rw [h3]; exact h4), h3]) h4 ih

theorem Shape.mono {V p p'} (h : Le p p') {e} (c : Shape V p e) : Shape V p' e := by
  cases c with
  | root n hr => exact .root n hr
  | one n d a b c d' => exact .one n d a b c d'
  | two n d1 d2 t a b c d e f g => exact .two n d1 d2 t a b c d e f (g.mono h)

theorem Chain.label {V p w} (c : Chain V p w) : ∀ v ∈ w, V.src v = true ∨ p v ≠ .UNKNOWN := by
  induction c with
  | root r hr => intro v hv; simp at hv; exact Or.inl (hv ▸ hr)
  | step v d w h1 h2 h3 h4 _ ih =>
    intro u hu
    rcases List.mem_cons.1 hu with rfl | hu
    · right; rw [h3]; exact h4
    · exact ih u hu

/-- every entry is a simple walk from a source through expanded, hence non-destination, nodes -/
structure EntOK (V : View) (nodes : List MIdx) (p : MIdx → Dir) (e : Ent) : Prop where
  shape : Shape V p e
  nodup : e.walk.Nodup
  sub : e.walk ⊆ nodes
  nodst : ∀ m ∈ e.walk.tail, V.dst m = false

theorem EntOK.mono {V nodes p p' e} (h : Le p p') (c : EntOK V nodes p e) : EntOK V nodes p' e :=
  ⟨c.shape.mono h, c.nodup, c.sub, c.nodst⟩

theorem Shape.walk_head {V p e} (h : Shape V p e) : ∃ t, e.walk = e.n :: t := by
  cases h <;> exact ⟨_, rfl⟩

theorem newPrev_le (V : View) (p e ds) (h : tailOK p e) : Le p (newPrev V p e ds) := by
  intro v hv
  unfold newPrev
  split
  · rfl
  · simp only [setPrev]
    rename_i hc
    simp only [not_or] at hc
    split
    · rename_i hh; subst hh
      rcases h with h | h | h
      · exact absurd h hc.1
      · exact absurd h hv
      · exact h.symm
    · rfl

theorem not_mem_walk {V : View} {nodes p e d} (h : EntOK V nodes p e) (hx : expandable V p e d)
    (hd : d ≠ .UNKNOWN) : e.n.nbr d ∉ e.walk := by
  obtain ⟨h1, h2, h3, h4⟩ := hx
  have hs := h.shape
  cases hs with
  | root n hr =>
    simp only [List.mem_singleton]
    exact nbr_ne _ _ hd
  | one n d1 a b c hr =>
    simp only [List.mem_cons, List.not_mem_nil, or_false, not_or]
    refine ⟨nbr_ne _ _ hd, fun hh => ?_⟩
    rw [hh] at h2; simp [hr] at h2
  | two n d1 d2 t a b c d' e' f g =>
    have hmem : ∀ v ∈ (back (back n d1) d2 :: t), n.nbr d ≠ v := by
      intro v hv hh
      rcases g.label v hv with hl | hl
      · rw [← hh] at hl; simp_all
      · rw [← hh] at hl; simp_all
    intro hm
    rcases List.mem_cons.1 hm with hm | hm
    · exact nbr_ne _ _ hd hm
    · rcases List.mem_cons.1 hm with hm | hm
      · have := nbr_inj _ _ _ hm
        apply h4
        show d1 = d.opp
        rw [this, opp_opp]
      · exact hmem _ hm rfl

/-- edges stay among `nodes` and no edge has direction UNKNOWN -/
def EdgesIn (V : View) (nodes : List MIdx) : Prop :=
  ∀ n d, V.edge n d = true → n ∈ nodes ∧ n.nbr d ∈ nodes ∧ d ≠ .UNKNOWN

theorem push_ok {V : View} {nodes p e d} (hE : EdgesIn V nodes) (h : EntOK V nodes p e)
    (hx : expandable V p e d) (ht : tailOK p e) (hnd : V.dst e.n = false) (p' : MIdx → Dir)
    (hle : Le p p') (hp' : e.d2 = .UNKNOWN ∨ p' (back e.n e.d1) = e.d2) :
    EntOK V nodes p' (push e d) := by
  have hd := (hE _ _ hx.1).2.2
  have hnm := not_mem_walk h hx hd
  refine ⟨?_, ?_, ?_, ?_⟩
  · obtain ⟨h1, h2, h3, h4⟩ := hx
    have hs := h.shape
    cases hs with
    | root n hr =>
      have := Shape.one (V := V) (p := p') (n.nbr d) d hd h2 (by rw [back_push]; exact h1) (by rw [back_push]; exact hr)
      rw [back_push] at this
      exact this
    | one n d1 a b c hr =>
      have := Shape.two (V := V) (p := p') (n.nbr d) d d1 [] hd a h2 (by rw [back_push]; exact b)
        (by rw [back_push]; exact h1) (by rw [back_push]; exact c) (.root _ (by rw [back_push]; exact hr))
      rw [back_push] at this
      exact this
    | two n d1 d2 t a b c d' e' f g =>
      have hpw : p' (back n d1) = d2 := by
        rcases hp' with hh | hh
        · exact absurd hh b
        · exact hh
      have := Shape.two (V := V) (p := p') (n.nbr d) d d1 (back (back n d1) d2 :: t) hd a h2
        (by rw [back_push]; exact c)
        (by rw [back_push]; exact h1) (by rw [back_push]; exact e')
        (by rw [back_push]; exact .step _ _ _ d' f hpw b (g.mono hle))
      rw [back_push] at this
      exact this
  · exact List.nodup_cons.2 ⟨hnm, h.nodup⟩
  · intro m hm
    rcases List.mem_cons.1 hm with rfl | hm
    · exact (hE _ _ hx.1).2.1
    · exact h.sub hm
  · intro m hm
    obtain ⟨t, ht'⟩ := h.shape.walk_head
    simp only [push, List.tail_cons] at hm
    rw [ht'] at hm
    rcases List.mem_cons.1 hm with rfl | hm
    · exact hnd
    · apply h.nodst; rw [ht']; exact hm

theorem nodup_length_le : ∀ (l m : List MIdx), l.Nodup → l ⊆ m → l.length ≤ m.length
  | [], _, _, _ => by simp
  | a :: l, m, hn, hs => by
    have ha : a ∈ m := hs (by simp)
    have := nodup_length_le l (m.erase a) (List.nodup_cons.1 hn).2 (by
      intro x hx
      have hne : x ≠ a := fun h => (List.nodup_cons.1 hn).1 (h ▸ hx)
      exact (List.mem_erase_of_ne hne).2 (hs (by simp [hx])))
    have hl := List.length_erase_of_mem ha
    have : 0 < m.length := List.length_pos_of_mem ha
    simp only [List.length_cons]; omega

/-! ## Invariant of the loop -/

def Inv (V : View) (nodes : List MIdx) (s : St) : Prop := ∀ e ∈ s.q, EntOK V nodes s.prev e

theorem newPrev_tail (V : View) (p e ds d) (hx : expandable V p e d) (hd : d ∈ ds) :
    e.d2 = .UNKNOWN ∨ newPrev V p e ds (back e.n e.d1) = e.d2 := by
  by_cases h2 : e.d2 = .UNKNOWN
  · exact Or.inl h2
  · right
    have : ds.filter (fun d => decide (expandable V p e d)) ≠ [] :=
      List.ne_nil_of_mem (List.mem_filter.2 ⟨hd, by simpa using hx⟩)
    simp [newPrev, h2, this, setPrev]

theorem inv_expand {V : View} {nodes e s} (hE : EdgesIn V nodes) (hi : Inv V nodes s)
    (he : EntOK V nodes s.prev e) (hd : V.dst e.n = false) : Inv V nodes (expandAll V e s) := by
  unfold expandAll
  by_cases ht : tailOK s.prev e
  · rw [fold_ok V e _ s ht]
    have hle := newPrev_le V s.prev e allDirs ht
    intro f hf
    rcases List.mem_append.1 hf with hf | hf
    · exact (hi f hf).mono hle
    · obtain ⟨d, hdm, rfl⟩ := List.mem_map.1 hf
      have hdm := List.mem_filter.1 hdm
      have hx : expandable V s.prev e d := by simpa using hdm.2
      exact push_ok hE he hx ht hd _ hle (newPrev_tail V s.prev e allDirs d hx hdm.1)
  · rw [fold_fail V e _ s ht]; exact hi

/-! ## Termination -/

def meas (M : Nat) (q : List Ent) : Nat := (q.map (fun e => 7 ^ (M + 1 - e.walk.length))).sum

theorem meas_append (M q r) : meas M (q ++ r) = meas M q + meas M r := by simp [meas]

theorem meas_eraseIdx (M : Nat) : ∀ (q : List Ent) (i : Nat) (e : Ent), q[i]? = some e →
    meas M q = meas M (q.eraseIdx i) + 7 ^ (M + 1 - e.walk.length)
  | [], i, e, h => by simp at h
  | a :: q, 0, e, h => by simp at h; subst h; simp [meas]; omega
  | a :: q, i + 1, e, h => by
    have := meas_eraseIdx M q i e (by simpa using h)
    simp only [meas, List.map_cons, List.sum_cons, List.eraseIdx_cons_succ] at this ⊢
    omega

theorem meas_push (M : Nat) (e : Ent) (ds : List Dir) :
    meas M (ds.map (push e)) = ds.length * 7 ^ (M - e.walk.length) := by
  induction ds with
  | nil => simp [meas]
  | cons d ds ih =>
    simp only [meas, List.map_cons, List.sum_cons, List.length_cons, Nat.add_one_mul] at ih ⊢
    rw [ih]
    have : M + 1 - (push e d).walk.length = M - e.walk.length := by simp only [push, List.length_cons]; omega
    rw [this]; omega

theorem meas_expand {V : View} {e s} (M : Nat) (hl : e.walk.length ≤ M) :
    meas M (expandAll V e s).q < meas M s.q + 7 ^ (M + 1 - e.walk.length) := by
  have hp : 7 ^ (M + 1 - e.walk.length) = 7 * 7 ^ (M - e.walk.length) := by
    rw [show M + 1 - e.walk.length = (M - e.walk.length) + 1 by omega, Nat.pow_succ]; omega
  have hpos : 0 < 7 ^ (M - e.walk.length) := Nat.pow_pos (by omega)
  unfold expandAll
  by_cases ht : tailOK s.prev e
  · rw [fold_ok V e _ s ht]
    show meas M (s.q ++ _) < _
    rw [meas_append, meas_push, hp]
    have : (allDirs.filter (fun d => decide (expandable V s.prev e d))).length ≤ 6 :=
      List.length_filter_le _ allDirs
    have := Nat.mul_le_mul_right (7 ^ (M - e.walk.length)) this
    omega
  · rw [fold_fail V e _ s ht]
    omega

theorem eraseIdx_subset (q : List Ent) (i : Nat) : ∀ e ∈ q.eraseIdx i, e ∈ q :=
  fun _ he => List.mem_of_mem_eraseIdx he

theorem loop_terminates {V : View} {nodes} (hE : EdgesIn V nodes) (pick : Nat → Nat) (f : Nat) :
    ∀ (k : Nat) (s : St), Inv V nodes s → meas nodes.length s.q < f → loop V pick f k s ≠ none := by
  induction f with
  | zero => intro k s _ h; omega
  | succ f ih =>
    intro k s hi hm
    simp only [loop]
    split
    · simp
    · rename_i e hq
      have hmem : e ∈ s.q := List.mem_of_getElem? hq
      have heok := hi e hmem
      have herase := meas_eraseIdx nodes.length s.q _ e hq
      have hpos : 0 < 7 ^ (nodes.length + 1 - e.walk.length) := Nat.pow_pos (by omega)
      have hi' : Inv V nodes ⟨s.q.eraseIdx (pick k % s.q.length), s.prev⟩ :=
        fun a ha => hi a (eraseIdx_subset _ _ a ha)
      split
      · exact ih _ _ hi' (by show meas _ (s.q.eraseIdx _) < f; omega)
      · split
        · simp
        · rename_i hnd
          refine ih _ _ (inv_expand hE hi' heok (by simpa using hnd)) ?_
          have := meas_expand (V := V) (e := e) (s := ⟨s.q.eraseIdx (pick k % s.q.length), s.prev⟩)
            nodes.length (nodup_length_le _ _ heok.nodup heok.sub)
          have e2 : meas nodes.length (St.q ⟨s.q.eraseIdx (pick k % s.q.length), s.prev⟩) =
            meas nodes.length (s.q.eraseIdx (pick k % s.q.length)) := rfl
          omega

/-! ## What the loop returns -/

theorem loop_found {V : View} {nodes} (hE : EdgesIn V nodes) (pick : Nat → Nat) (f : Nat) :
    ∀ (k : Nat) (s s' : St) (e : Ent), Inv V nodes s → loop V pick f k s = some (s', some e) →
      EntOK V nodes s'.prev e ∧ V.dst e.n = true ∧ Inv V nodes s' := by
  induction f with
  | zero => intro k s s' e _ h; simp [loop] at h
  | succ f ih =>
    intro k s s' e hi h
    simp only [loop] at h
    split at h
    · simp at h
    · rename_i e0 hq
      have hmem : e0 ∈ s.q := List.mem_of_getElem? hq
      have heok := hi e0 hmem
      have hi' : Inv V nodes ⟨s.q.eraseIdx (pick k % s.q.length), s.prev⟩ :=
        fun a ha => hi a (eraseIdx_subset _ _ a ha)
      split at h
      · exact ih _ _ _ _ hi' h
      · split at h
        · rename_i hdst
          simp only [Option.some.injEq, Prod.mk.injEq] at h
          obtain ⟨h1, h2⟩ := h
          subst h1; subst h2
          exact ⟨heok, hdst, hi'⟩
        · rename_i hnd
          exact ih _ _ _ _ (inv_expand hE hi' heok (by simpa using hnd)) h

/-! ## Completeness -/

/-- `SB n d`: an entry at `n`, entered in direction `d`, was expanded and its pushes accepted -/
structure Cov (V : View) (s : St) (SB : MIdx → Dir → Prop) : Prop where
  nodst : ∀ n d, SB n d → V.dst n = false
  label : ∀ v, s.prev v ≠ .UNKNOWN → SB v (s.prev v)
  parent : ∀ e ∈ s.q, e.d1 ≠ .UNKNOWN → SB (back e.n e.d1) e.d2
  cover : ∀ v d' δ, SB v d' → V.edge v δ = true →
    V.src (v.nbr δ) = true ∨ (∃ d, SB (v.nbr δ) d) ∨
    (∃ e ∈ s.q, e.n = v.nbr δ ∧ e.d1 = δ ∧ e.d2 = d') ∨ (s.prev v ≠ .UNKNOWN ∧ s.prev v ≠ d')
  roots : ∀ r, V.src r = true → SB r .UNKNOWN ∨ ∃ e ∈ s.q, e.n = r ∧ e.d1 = .UNKNOWN

theorem mem_eraseIdx_or (q : List Ent) : ∀ (i : Nat) (e a : Ent), q[i]? = some e → a ∈ q →
    a = e ∨ a ∈ q.eraseIdx i := by
  induction q with
  | nil => intro i e a h; simp at h
  | cons b q ih =>
    intro i e a h ha
    cases i with
    | zero =>
      simp at h
      rcases List.mem_cons.1 ha with rfl | ha
      · exact Or.inl h
      · exact Or.inr (by simpa using ha)
    | succ i =>
      rcases List.mem_cons.1 ha with rfl | ha
      · exact Or.inr (by simp)
      · rcases ih i e a (by simpa using h) ha with h | h
        · exact Or.inl h
        · exact Or.inr (by simp [h])

theorem Shape.d2_d1 {V p e} (h : Shape V p e) (h2 : e.d2 ≠ .UNKNOWN) : e.d1 ≠ .UNKNOWN := by
  cases h <;> simp_all

theorem Shape.src_iff {V p e} (h : Shape V p e) (h2 : e.d1 ≠ .UNKNOWN) : V.src e.n = false := by
  cases h <;> simp_all

theorem Shape.root_src {V p e} (h : Shape V p e) (h2 : e.d1 = .UNKNOWN) : V.src e.n = true ∧ e.d2 = .UNKNOWN := by
  cases h <;> simp_all

theorem Shape.nbr_back {V p e} (h : Shape V p e) (h2 : e.d1 ≠ .UNKNOWN) : V.edge (back e.n e.d1) e.d1 = true := by
  cases h <;> simp_all

/-- popping an entry whose node already carries a label -/
theorem cov_skip {V : View} {s SB i e p} (hq : s.q[i]? = some e) (hs : Shape V p e)
    (hc : Cov V s SB) (hl : s.prev e.n ≠ .UNKNOWN) (hroot : e.d1 = .UNKNOWN → s.prev e.n = .UNKNOWN) :
    Cov V ⟨s.q.eraseIdx i, s.prev⟩ SB where
  nodst := hc.nodst
  label := hc.label
  parent := fun a ha => hc.parent a (eraseIdx_subset _ _ a ha)
  cover := by
    intro v d' δ h1 h2
    rcases hc.cover v d' δ h1 h2 with h | h | ⟨a, ha, h3, h4, h5⟩ | h
    · exact Or.inl h
    · exact Or.inr (Or.inl h)
    · rcases mem_eraseIdx_or _ _ _ _ hq ha with rfl | ha
      · exact Or.inr (Or.inl ⟨_, h3 ▸ hc.label _ hl⟩)
      · exact Or.inr (Or.inr (Or.inl ⟨a, ha, h3, h4, h5⟩))
    · exact Or.inr (Or.inr (Or.inr h))
  roots := by
    intro r hr
    rcases hc.roots r hr with h | ⟨a, ha, h3, h4⟩
    · exact Or.inl h
    · rcases mem_eraseIdx_or _ _ _ _ hq ha with rfl | ha
      · exact absurd (hroot h4) hl
      · exact Or.inr ⟨a, ha, h3, h4⟩

theorem cov_expand {V : View} {s SB i e} (hq : s.q[i]? = some e) (hs : Shape V s.prev e)
    (hE : ∀ n d, V.edge n d = true → d ≠ .UNKNOWN)
    (hc : Cov V s SB) (hl : s.prev e.n = .UNKNOWN) (hd : V.dst e.n = false) :
    ∃ SB', Cov V (expandAll V e ⟨s.q.eraseIdx i, s.prev⟩) SB' := by
  by_cases ht : tailOK s.prev e
  · refine ⟨fun n d => SB n d ∨ (n = e.n ∧ d = e.d1), ?_⟩
    unfold expandAll
    rw [fold_ok V e _ ⟨s.q.eraseIdx i, s.prev⟩ ht]
    have hle := newPrev_le V s.prev e allDirs ht
    have hmem : e ∈ s.q := List.mem_of_getElem? hq
    constructor
    · rintro n d (h | ⟨rfl, rfl⟩)
      · exact hc.nodst n d h
      · exact hd
    · intro v hv
      left
      by_cases h0 : s.prev v = .UNKNOWN
      · have : v = back e.n e.d1 ∧ newPrev V s.prev e allDirs v = e.d2 ∧ e.d2 ≠ .UNKNOWN := by
          simp only [newPrev] at hv ⊢
          split at hv
          · exact absurd h0 hv
          · rename_i hn
            simp only [setPrev] at hv ⊢
            by_cases hvv : v = back e.n e.d1
            · rw [if_neg hn]; subst hvv
              simp only [not_or] at hn
              exact ⟨rfl, if_pos rfl, hn.1⟩
            · rw [if_neg hvv] at hv; exact absurd h0 hv
        obtain ⟨r1, r2, r3⟩ := this
        show SB v (newPrev V s.prev e allDirs v)
        rw [r2, r1]
        exact hc.parent e hmem (hs.d2_d1 r3)
      · show SB v (newPrev V s.prev e allDirs v)
        rw [hle v h0]; exact hc.label v h0
    · intro a ha h1
      rcases List.mem_append.1 ha with ha | ha
      · exact Or.inl (hc.parent a (eraseIdx_subset _ _ a ha) h1)
      · obtain ⟨d, hdm, rfl⟩ := List.mem_map.1 ha
        right
        exact ⟨back_push e.n d, rfl⟩
    · rintro v d' δ (h1 | ⟨rfl, rfl⟩) h2
      · rcases hc.cover v d' δ h1 h2 with h | ⟨d, h⟩ | ⟨a, ha, h3, h4, h5⟩ | h
        · exact Or.inl h
        · exact Or.inr (Or.inl ⟨d, Or.inl h⟩)
        · rcases mem_eraseIdx_or _ _ _ _ hq ha with rfl | ha
          · exact Or.inr (Or.inl ⟨a.d1, Or.inr ⟨h3.symm, rfl⟩⟩)
          · exact Or.inr (Or.inr (Or.inl ⟨a, List.mem_append_left _ ha, h3, h4, h5⟩))
        · refine Or.inr (Or.inr (Or.inr ?_))
          show newPrev V s.prev e allDirs v ≠ _ ∧ newPrev V s.prev e allDirs v ≠ _
          rw [hle v h.1]; exact h
      · by_cases hx : expandable V s.prev e δ
        · refine Or.inr (Or.inr (Or.inl ⟨push e δ, ?_, rfl, rfl, rfl⟩))
          refine List.mem_append_right _ (List.mem_map.2 ⟨δ, List.mem_filter.2 ⟨(mem_allDirs δ).2 (hE _ _ h2), ?_⟩, rfl⟩)
          simpa using hx
        · simp only [expandable] at hx
          by_cases a1 : V.src (e.n.nbr δ) = true
          · exact Or.inl a1
          · by_cases a2 : s.prev (e.n.nbr δ) = .UNKNOWN
            · have a3 : e.d1 = δ.opp := by
                by_cases hh : e.d1 = δ.opp
                · exact hh
                · exact absurd ⟨h2, by simpa using a1, a2, hh⟩ hx
              have a4 : e.d1 ≠ .UNKNOWN := by
                rw [a3, Ne, opp_unknown]; exact hE _ _ h2
              have a5 := hc.parent e hmem a4
              have a6 : back e.n e.d1 = e.n.nbr δ := by rw [a3]; simp [back, opp_opp]
              rw [a6] at a5
              exact Or.inr (Or.inl ⟨_, Or.inl a5⟩)
            · exact Or.inr (Or.inl ⟨_, Or.inl (hc.label _ a2)⟩)
    · intro r hr
      rcases hc.roots r hr with h | ⟨a, ha, h3, h4⟩
      · exact Or.inl (Or.inl h)
      · rcases mem_eraseIdx_or _ _ _ _ hq ha with rfl | ha
        · exact Or.inl (Or.inr ⟨h3.symm, h4.symm⟩)
        · exact Or.inr ⟨a, List.mem_append_left _ ha, h3, h4⟩
  · refine ⟨SB, ?_⟩
    unfold expandAll
    rw [fold_fail V e _ ⟨s.q.eraseIdx i, s.prev⟩ ht]
    simp only [tailOK, not_or] at ht
    constructor
    · exact hc.nodst
    · exact hc.label
    · exact fun a ha => hc.parent a (eraseIdx_subset _ _ a ha)
    · intro v d' δ h1 h2
      rcases hc.cover v d' δ h1 h2 with h | h | ⟨a, ha, h3, h4, h5⟩ | h
      · exact Or.inl h
      · exact Or.inr (Or.inl h)
      · rcases mem_eraseIdx_or _ _ _ _ hq ha with rfl | ha
        · refine Or.inr (Or.inr (Or.inr ?_))
          have : back a.n a.d1 = v := by rw [h3, h4]; exact back_push v δ
          rw [this, h5] at ht
          exact ht.2
        · exact Or.inr (Or.inr (Or.inl ⟨a, ha, h3, h4, h5⟩))
      · exact Or.inr (Or.inr (Or.inr h))
    · intro r hr
      rcases hc.roots r hr with h | ⟨a, ha, h3, h4⟩
      · exact Or.inl h
      · rcases mem_eraseIdx_or _ _ _ _ hq ha with rfl | ha
        · exact absurd (hs.root_src h4).2 ht.1
        · exact Or.inr ⟨a, ha, h3, h4⟩

/-- no source is ever labelled -/
def SrcFree (V : View) (p : MIdx → Dir) : Prop := ∀ v, V.src v = true → p v = .UNKNOWN

theorem srcFree_expand {V : View} {e s} (hs : Shape V s.prev e) (h : SrcFree V s.prev) :
    SrcFree V (expandAll V e s).prev := by
  unfold expandAll
  by_cases ht : tailOK s.prev e
  · rw [fold_ok V e _ s ht]
    intro v hv
    show newPrev V s.prev e allDirs v = _
    unfold newPrev
    split
    · exact h v hv
    · rename_i hn
      simp only [setPrev]
      split
      · rename_i hh; subst hh
        simp only [not_or] at hn
        cases hs <;> simp_all
      · exact h v hv
  · rw [fold_fail V e _ s ht]; exact h

theorem loop_fail {V : View} {nodes} (hE : EdgesIn V nodes) (pick : Nat → Nat) (f : Nat) :
    ∀ (k : Nat) (s s' : St), Inv V nodes s → SrcFree V s.prev → (∃ SB, Cov V s SB) →
      loop V pick f k s = some (s', none) → s'.q = [] ∧ ∃ SB, Cov V s' SB := by
  induction f with
  | zero => intro k s s' _ _ _ h; simp [loop] at h
  | succ f ih =>
    intro k s s' hi hsf hc h
    simp only [loop] at h
    split at h
    · rename_i hq
      simp only [Option.some.injEq, Prod.mk.injEq, and_true] at h
      subst h
      refine ⟨?_, hc⟩
      by_cases h0 : s.q = []
      · exact h0
      · have : 0 < s.q.length := List.length_pos_iff.2 h0
        have := Nat.mod_lt (pick k) this
        rw [List.getElem?_eq_none_iff] at hq
        omega
    · rename_i e0 hq
      have hmem : e0 ∈ s.q := List.mem_of_getElem? hq
      have heok := hi e0 hmem
      have hi' : Inv V nodes ⟨s.q.eraseIdx (pick k % s.q.length), s.prev⟩ :=
        fun a ha => hi a (eraseIdx_subset _ _ a ha)
      obtain ⟨SB, hc⟩ := hc
      split at h
      · rename_i hl
        exact ih _ _ _ hi' hsf ⟨SB, cov_skip hq heok.shape hc hl
          (fun h1 => hsf _ (heok.shape.root_src h1).1)⟩ h
      · split at h
        · simp at h
        · rename_i hl hnd
          exact ih _ _ _ (inv_expand hE hi' heok (by simpa using hnd)) (srcFree_expand heok.shape hsf)
            (cov_expand hq heok.shape (fun n d h => (hE n d h).2.2) hc (by simpa using hl) (by simpa using hnd)) h

/-- nodes reachable from a source over edges -/
inductive Reach (V : View) : MIdx → Prop
  | src (r) : V.src r = true → Reach V r
  | step (n d) : Reach V n → V.edge n d = true → Reach V (n.nbr d)

theorem reach_served {V : View} {s SB} (hq : s.q = []) (hc : Cov V s SB) (n : MIdx) (h : Reach V n) :
    ∃ d, SB n d := by
  have root : ∀ r, V.src r = true → ∃ d, SB r d := by
    intro r hr
    rcases hc.roots r hr with h | ⟨a, ha, _⟩
    · exact ⟨_, h⟩
    · simp [hq] at ha
  induction h with
  | src r hr => exact root r hr
  | step n δ _ he ih =>
    obtain ⟨d, hd⟩ := ih
    have key : ∀ d', SB n d' → (s.prev n = .UNKNOWN ∨ s.prev n = d') → ∃ d, SB (n.nbr δ) d := by
      intro d' h1 h2
      rcases hc.cover n d' δ h1 he with h | h | ⟨a, ha, _⟩ | h
      · exact root _ h
      · exact h
      · simp [hq] at ha
      · rcases h2 with h2 | h2
        · exact absurd h2 h.1
        · exact absurd h2 h.2
    by_cases hp : s.prev n = .UNKNOWN
    · exact key d hd (Or.inl hp)
    · exact key _ (hc.label n hp) (Or.inr rfl)

theorem init_cov {V : View} (comps : List MIdx) (h : ∀ r, V.src r = true → r ∈ comps) :
    Cov V ⟨comps.map (fun n => ⟨n, .UNKNOWN, .UNKNOWN, [n]⟩), fun _ => .UNKNOWN⟩ (fun _ _ => False) where
  nodst := by intro _ _ h; exact h.elim
  label := by intro v hv; exact absurd rfl hv
  parent := by
    intro e he h1
    obtain ⟨n, _, rfl⟩ := List.mem_map.1 he
    exact absurd rfl h1
  cover := by intro _ _ _ h; exact h.elim
  roots := by
    intro r hr
    exact Or.inr ⟨_, List.mem_map.2 ⟨r, h r hr, rfl⟩, rfl, rfl⟩

theorem init_inv {V : View} {nodes} (comps : List MIdx) (hs : ∀ r ∈ comps, V.src r = true)
    (hn : ∀ r ∈ comps, r ∈ nodes) :
    Inv V nodes ⟨comps.map (fun n => ⟨n, .UNKNOWN, .UNKNOWN, [n]⟩), fun _ => .UNKNOWN⟩ := by
  intro e he
  obtain ⟨n, hnm, rfl⟩ := List.mem_map.1 he
  refine ⟨.root n (hs n hnm), by simp, by intro m hm; simp at hm; exact hm ▸ hn n hnm, by simp⟩

/-- more fuel gives the same answer -/
theorem loop_fuel {V : View} (pick : Nat → Nat) (f : Nat) : ∀ (k : Nat) (s : St) (r),
    loop V pick f k s = some r → ∀ f' ≥ f, loop V pick f' k s = some r := by
  induction f with
  | zero => intro k s r h; simp [loop] at h
  | succ f ih =>
    intro k s r h f' hf
    obtain ⟨f', rfl⟩ : ∃ j, f' = j + 1 := ⟨f' - 1, by omega⟩
    simp only [loop] at h ⊢
    split at h
    · exact h
    · split at h
      · rw [if_pos (by assumption)]; exact ih _ _ _ h f' (by omega)
      · split at h
        · rw [if_neg (by assumption), if_pos (by assumption)]; exact h
        · rw [if_neg (by assumption), if_neg (by assumption)]; exact ih _ _ _ h f' (by omega)

end TR.Abs
