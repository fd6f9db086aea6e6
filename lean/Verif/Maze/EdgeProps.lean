import Verif.Maze.GridProps
/-! Property theorems C09 (edges), C10 and C44 (counters), C11 (labels). -/
namespace TR

/-! ## C09 -/

/-- storage key of an edge -/
def edgeKey (n : MIdx) (d : Dir) : Option (MIdx × Attr) :=
  byAxis .edgeE .edgeN .edgeU (edgeHome n d)

theorem ite_false_eq_and (b c : Bool) [Decidable (b = true)] : (if b = true then c else false) = (b && c) := by
  cases b <;> simp

theorem hasEdge_key (g : Grid) (n : MIdx) (d : Dir) : g.hasEdge n d =
    match edgeKey n d with
    | none => false
    | some (h, a) => g.isValid h && g.attr h a != 0 := by
  have gb : ∀ (m : MIdx) (p : Nat), p < 64 → getBit (g.bits (g.idx m)) p = (getBits (g.bits (g.idx m)) p 1 != 0) :=
    fun m p hp => getBit_eq _ p hp
  cases d
  · simp only [Grid.hasEdge, edgeKey, edgeHome, byAxis]; split <;> rfl
  all_goals
    simp only [Grid.hasEdge, correct, edgeKey, edgeHome, byAxis, attr_eq, Attr.field]
    refine (ite_false_eq_and _ _).trans ?_
    rw [gb _ _ (by omega)]

theorem edgeKey_some (n : MIdx) (d : Dir) (hd : d ≠ .UNKNOWN) : ∃ h a, edgeKey n d = some (h, a) := by
  cases d <;> simp_all [edgeKey, edgeHome, byAxis]

theorem sameEdge_key (n : MIdx) (d : Dir) (m : MIdx) (e : Dir) (hd : d ≠ .UNKNOWN) :
    SameEdge n d m e ↔ edgeKey m e = edgeKey n d := by
  rcases n with ⟨a, b, c⟩; rcases m with ⟨a', b', c'⟩
  cases d <;> cases e <;>
    simp [SameEdge, edgeKey, edgeHome, byAxis, MIdx.nbr, Dir.delta, Dir.opp] at hd ⊢ <;> omega

theorem nbr_reverse (n : MIdx) (d : Dir) : (reverse n d).1 = n.nbr d := by
  rcases n with ⟨a, b, c⟩
  cases d <;> simp [reverse, MIdx.nbr, Dir.delta] <;> omega

/-- both ends on the grid, in corrected or uncorrected form -/
theorem isValidD_correct (g : Grid) (n : MIdx) (d : Dir) :
    g.isValidD (correct n d).1 (correct n d).2 = true ↔ g.On n ∧ g.On (n.nbr d) := by
  simp only [Grid.isValidD, Bool.and_eq_true, nbr_reverse, ← on_iff]
  rcases n with ⟨a, b, c⟩
  cases d <;> simp [correct, MIdx.nbr, Dir.delta, Grid.On] <;> omega

/-- C09: an edge is seen identically from both of its ends, in every state. -/
theorem c09_symmetric (g : Grid) (n : MIdx) (d : Dir) :
    g.hasEdge n d = g.hasEdge (n.nbr d) d.opp := by
  by_cases hd : d = .UNKNOWN
  · subst hd; rw [hasEdge_key, hasEdge_key]; rfl
  · rw [hasEdge_key, hasEdge_key, ((sameEdge_key n d (n.nbr d) d.opp hd).1 (Or.inr ⟨rfl, rfl⟩))]

theorem isEdgeInBox_on (g : Grid) (n : MIdx) (d : Dir) (box : Box) (i : Bool)
    (h : g.isEdgeInBox n d box i = true) : g.On n ∧ g.On (n.nbr d) := by
  rw [← isValidD_correct]
  unfold Grid.isEdgeInBox at h
  by_cases hv : g.isValidD (correct n d).1 (correct n d).2 = true
  · exact hv
  · simp [hv] at h

theorem addEdge_true (g : Grid) (n : MIdx) (d : Dir) (box : Box) (i : Bool)
    (h : (g.addEdge n d box i).2 = true) :
    d ≠ .UNKNOWN ∧ g.On n ∧ g.On (n.nbr d) ∧
    ∃ k a, edgeKey n d = some (k, a) ∧ g.isValid k = true ∧ (g.addEdge n d box i).1 = g.put k a 1 := by
  simp only [Grid.addEdge] at h ⊢
  by_cases h1 : g.isEdgeInBox n d box i = true
  · simp only [h1, Bool.not_true, Bool.false_eq_true, if_false] at h ⊢
    by_cases h2 : g.isValidD (correct n d).1 (correct n d).2 = true
    · have h3 : g.isValid (correct n d).1 = true := by
        simp only [Grid.isValidD, Bool.and_eq_true] at h2; exact h2.1
      have h4 := (isValidD_correct g n d).1 h2
      simp only [h2, if_true] at h ⊢
      have S : ∀ (m : MIdx) (a : Attr) (p : Nat), p < 64 → a.field = (p, 1) →
          g.upd (g.idx m) (setBit · p) = g.put m a 1 := by
        intro m a p hp ha
        apply upd_congr
        rw [ha]; exact setBit_eq _ p hp
      cases d <;> simp only [correct] at h h3 ⊢
      · simp at h
      · exact ⟨by simp, h4.1, h4.2, _, .edgeU, rfl, h3, S _ _ 2 (by omega) rfl⟩
      · exact ⟨by simp, h4.1, h4.2, _, .edgeN, rfl, h3, S _ _ 1 (by omega) rfl⟩
      · exact ⟨by simp, h4.1, h4.2, _, .edgeE, rfl, h3, S _ _ 0 (by omega) rfl⟩
      · exact ⟨by simp, h4.1, h4.2, _, .edgeE, rfl, h3, S _ _ 0 (by omega) rfl⟩
      · exact ⟨by simp, h4.1, h4.2, _, .edgeN, rfl, h3, S _ _ 1 (by omega) rfl⟩
      · exact ⟨by simp, h4.1, h4.2, _, .edgeU, rfl, h3, S _ _ 2 (by omega) rfl⟩
    · simp [h2] at h
  · simp [h1] at h

theorem addEdge_false (g : Grid) (n : MIdx) (d : Dir) (box : Box) (i : Bool)
    (h : (g.addEdge n d box i).2 = false) : (g.addEdge n d box i).1 = g := by
  simp only [Grid.addEdge] at h ⊢
  by_cases h1 : g.isEdgeInBox n d box i = true
  · simp only [h1, Bool.not_true, Bool.false_eq_true, if_false] at h ⊢
    by_cases h2 : g.isValidD (correct n d).1 (correct n d).2 = true
    · simp only [h2, if_true] at h ⊢
      cases d <;> simp [correct] at h ⊢
    · simp [h2]
  · simp [h1]

theorem removeEdge_on (g : Grid) (n : MIdx) (d : Dir) (hn : g.On n) (hn' : g.On (n.nbr d))
    (hd : d ≠ .UNKNOWN) :
    ∃ k a, edgeKey n d = some (k, a) ∧ g.isValid k = true ∧ (g.removeEdge n d).1 = g.put k a 0 ∧
      (g.removeEdge n d).2 = true := by
  have h2 := (isValidD_correct g n d).2 ⟨hn, hn'⟩
  have h3 : g.isValid (correct n d).1 = true := by
    simp only [Grid.isValidD, Bool.and_eq_true] at h2; exact h2.1
  simp only [Grid.removeEdge, h2, if_true]
  have S : ∀ (m : MIdx) (a : Attr) (p : Nat), p < 64 → a.field = (p, 1) →
      g.upd (g.idx m) (resetBit · p) = g.put m a 0 := by
    intro m a p hp ha
    apply upd_congr
    rw [ha]; exact resetBit_eq _ p hp
  cases d <;> simp only [correct] at h3 ⊢
  · simp at hd
  · exact ⟨_, .edgeU, rfl, h3, S _ _ 2 (by omega) rfl, trivial⟩
  · exact ⟨_, .edgeN, rfl, h3, S _ _ 1 (by omega) rfl, trivial⟩
  · exact ⟨_, .edgeE, rfl, h3, S _ _ 0 (by omega) rfl, trivial⟩
  · exact ⟨_, .edgeE, rfl, h3, S _ _ 0 (by omega) rfl, trivial⟩
  · exact ⟨_, .edgeN, rfl, h3, S _ _ 1 (by omega) rfl, trivial⟩
  · exact ⟨_, .edgeU, rfl, h3, S _ _ 2 (by omega) rfl, trivial⟩

theorem removeEdge_off (g : Grid) (n : MIdx) (d : Dir) (h : ¬ (g.On n ∧ g.On (n.nbr d) ∧ d ≠ .UNKNOWN)) :
    g.removeEdge n d = (g, false) := by
  by_cases h2 : g.isValidD (correct n d).1 (correct n d).2 = true
  · have := (isValidD_correct g n d).1 h2
    have hd : d = .UNKNOWN := by
      by_cases hd : d = .UNKNOWN
      · exact hd
      · exact absurd ⟨this.1, this.2, hd⟩ h
    subst hd; simp only [Grid.removeEdge]; split <;> rfl
  · simp [Grid.removeEdge, h2]

theorem hasEdge_put (g : Grid) (k : MIdx) (a : Attr) (v : Nat) (hk : g.isValid k = true)
    (n : MIdx) (d : Dir) (hkey : edgeKey n d = some (k, a)) (hv : v < 2) (hd : d ≠ .UNKNOWN)
    (m : MIdx) (e : Dir) :
    (g.put k a v).hasEdge m e = if SameEdge n d m e then decide (v ≠ 0) else g.hasEdge m e := by
  have ha : a.field.2 = 1 := by
    cases d <;> simp [edgeKey, edgeHome, byAxis] at hkey hd <;> obtain ⟨_, rfl⟩ := hkey <;> rfl
  rw [hasEdge_key, hasEdge_key]
  by_cases hs : SameEdge n d m e
  · have := (sameEdge_key n d m e hd).1 hs
    simp only [hs, if_true, this, hkey, put_isValid, hk, put_attr g k k a a v hk hk, ha]
    have : v % 2 ^ 1 = v := Nat.mod_eq_of_lt (by simpa using hv)
    simp [this]; rfl
  · have hne : edgeKey m e ≠ some (k, a) := fun h => hs ((sameEdge_key n d m e hd).2 (h.trans hkey.symm))
    simp only [hs, if_false]
    cases hke : edgeKey m e with
    | none => rfl
    | some p =>
      obtain ⟨k', a'⟩ := p
      simp only [put_isValid]
      by_cases hv' : g.isValid k' = true
      · rw [put_attr g k k' a a' v hk hv']
        have : ¬ (k' = k ∧ a' = a) := by rintro ⟨rfl, rfl⟩; exact hne hke
        simp [this]
      · simp [hv']

/-- C09: a successful `addEdge` makes exactly that edge present (from both ends) and changes no
other edge; it can only succeed for an edge with both ends on the grid. A failed one writes
nothing. -/
theorem c09_add (g : Grid) (n : MIdx) (d : Dir) (box : Box) (i : Bool) :
    ((g.addEdge n d box i).2 = true →
      g.On n ∧ g.On (n.nbr d) ∧ d ≠ .UNKNOWN ∧ ∀ m e, ((g.addEdge n d box i).1).hasEdge m e =
        if SameEdge n d m e then true else g.hasEdge m e) ∧
    ((g.addEdge n d box i).2 = false → (g.addEdge n d box i).1 = g) := by
  constructor
  · intro h
    obtain ⟨hd, h1, h2, k, a, hk, hv, he⟩ := addEdge_true g n d box i h
    refine ⟨h1, h2, hd, ?_⟩
    intro m e
    rw [he, hasEdge_put g k a 1 hv n d hk (by omega) hd]
    simp
  · exact addEdge_false g n d box i

/-- C09: `addEdge` succeeds exactly when both ends are on the grid and inside the box, except
that during initialisation edges lying on the box's right or top border are refused. -/
theorem c09_add_succeeds_iff (g : Grid) (n : MIdx) (d : Dir) (box : Box) (i : Bool)
    (hd : d ≠ .UNKNOWN) :
    (g.addEdge n d box i).2 = true ↔
      g.On n ∧ g.On (n.nbr d) ∧
      ∃ p q, g.point n = some p ∧ g.point (n.nbr d) = some q ∧ box.Mem p ∧ box.Mem q ∧
        (i = true → ¬ (p.x = box.right ∧ q.x = box.right) ∧ ¬ (p.y = box.top ∧ q.y = box.top)) := by
  have key : (g.addEdge n d box i).2 = true ↔ g.isEdgeInBox n d box i = true := by
    constructor
    · intro h
      by_cases h1 : g.isEdgeInBox n d box i = true
      · exact h1
      · simp [Grid.addEdge, h1] at h
    · intro h
      have h2 := (isValidD_correct g n d).2 (isEdgeInBox_on g n d box i h)
      simp only [Grid.addEdge, h, h2, Bool.not_true, Bool.false_eq_true, if_false, if_true]
      cases d <;> simp [correct] at hd ⊢
  rw [key]
  have hc : ∀ p : Point, box.containsPt p = true ↔ box.Mem p := by
    intro p; simp [Box.containsPt, Box.Mem, InRect, Box.left, Box.right, Box.top, Box.bottom]; omega
  by_cases hv : g.isValidD (correct n d).1 (correct n d).2 = true
  · have hon := (isValidD_correct g n d).1 hv
    have e1 : ∃ p, g.point n = some p := by
      have := hon.1; unfold Grid.On at this
      have h1 : n.x.toNat < g.xs.length := by omega
      have h2 : n.y.toNat < g.ys.length := by omega
      exact ⟨_, by simp [Grid.point, h1, h2]; rfl⟩
    have e2 : ∃ p, g.point (n.nbr d) = some p := by
      have := hon.2; unfold Grid.On at this
      have h1 : (n.nbr d).x.toNat < g.xs.length := by omega
      have h2 : (n.nbr d).y.toNat < g.ys.length := by omega
      exact ⟨_, by simp [Grid.point, h1, h2]; rfl⟩
    obtain ⟨p, hp⟩ := e1
    obtain ⟨q, hq⟩ := e2
    have hcase : ((correct n d).1 = n ∧ (reverse (correct n d).1 (correct n d).2).1 = n.nbr d) ∨
        ((correct n d).1 = n.nbr d ∧ (reverse (correct n d).1 (correct n d).2).1 = n) := by
      rcases n with ⟨a, b, c⟩
      cases d <;> simp [correct, reverse, MIdx.nbr, Dir.delta] <;> omega
    have hmain : ∀ P Q : Point, g.point (correct n d).1 = some P →
        g.point (reverse (correct n d).1 (correct n d).2).1 = some Q →
        (g.isEdgeInBox n d box i = true ↔ (box.Mem P ∧ box.Mem Q ∧
          (i = true → ¬ (P.x = box.right ∧ Q.x = box.right) ∧ ¬ (P.y = box.top ∧ Q.y = box.top)))) := by
      intro P Q hP hQ
      simp only [Grid.isEdgeInBox, hv, if_true, hP, hQ]
      rw [← hc, ← hc]
      cases hA : box.containsPt P <;> cases hB : box.containsPt Q <;> cases i <;> simp
      omega
    rcases hcase with ⟨c1, c2⟩ | ⟨c1, c2⟩
    · rw [hmain p q (by rw [c1]; exact hp) (by rw [c2]; exact hq)]
      constructor
      · intro h; exact ⟨hon.1, hon.2, p, q, hp, hq, h⟩
      · rintro ⟨_, _, p', q', hp', hq', h⟩
        rw [hp] at hp'; rw [hq] at hq'; cases hp'; cases hq'; exact h
    · rw [hmain q p (by rw [c1]; exact hq) (by rw [c2]; exact hp)]
      constructor
      · rintro ⟨h1, h2, h3⟩
        exact ⟨hon.1, hon.2, p, q, hp, hq, h2, h1, fun hi => ⟨fun h => (h3 hi).1 ⟨h.2, h.1⟩, fun h => (h3 hi).2 ⟨h.2, h.1⟩⟩⟩
      · rintro ⟨_, _, p', q', hp', hq', h1, h2, h3⟩
        rw [hp] at hp'; rw [hq] at hq'; cases hp'; cases hq'
        exact ⟨h2, h1, fun hi => ⟨fun h => (h3 hi).1 ⟨h.2, h.1⟩, fun h => (h3 hi).2 ⟨h.2, h.1⟩⟩⟩
  · constructor
    · intro h; exact absurd ((isValidD_correct g n d).2 (isEdgeInBox_on g n d box i h)) hv
    · rintro ⟨h1, h2, _⟩; exact absurd ((isValidD_correct g n d).2 ⟨h1, h2⟩) hv

/-- C09: `removeEdge` makes exactly that edge absent when both ends are on the grid, and
otherwise reports failure and writes nothing. -/
theorem c09_remove (g : Grid) (n : MIdx) (d : Dir) :
    (g.On n ∧ g.On (n.nbr d) ∧ d ≠ .UNKNOWN → (g.removeEdge n d).2 = true ∧
      ∀ m e, ((g.removeEdge n d).1).hasEdge m e = if SameEdge n d m e then false else g.hasEdge m e) ∧
    (¬ (g.On n ∧ g.On (n.nbr d) ∧ d ≠ .UNKNOWN) → g.removeEdge n d = (g, false)) := by
  constructor
  · rintro ⟨h1, h2, hd⟩
    obtain ⟨k, a, hk, hv, he, ht⟩ := removeEdge_on g n d h1 h2 hd
    refine ⟨ht, ?_⟩
    intro m e
    rw [he, hasEdge_put g k a 0 hv n d hk (by omega) hd]
    simp
  · exact removeEdge_off g n d

theorem byAxis_shape (e n u : Attr) (h : Option (MIdx × Dir)) (m : MIdx) (a : Attr)
    (hb : byAxis e n u h = some (m, a)) : a = e ∨ a = n ∨ a = u := by
  unfold byAxis at hb
  split at hb <;> simp at hb <;> obtain ⟨_, rfl⟩ := hb <;> simp

/-- an edge attribute of some node -/
def isEdgeAttr (a : Attr) : Prop := a = .edgeE ∨ a = .edgeN ∨ a = .edgeU

theorem edgeKey_attr (n d h a) (hk : edgeKey n d = some (h, a)) : isEdgeAttr a :=
  byAxis_shape _ _ _ _ _ _ hk

theorem target_not_edge (op : GOp) (m : MIdx) (a : Attr) (ha : isEdgeAttr a)
    (h1 : ∀ n d b i, op ≠ .addEdge n d b i) (h2 : ∀ n d, op ≠ .removeEdge n d) :
    op.target ≠ some (m, a) := by
  intro ht
  cases op
  case addEdge n d b i => exact h1 _ _ _ _ rfl
  case removeEdge n d => exact h2 _ _ rfl
  all_goals
    simp only [GOp.target] at ht
    first
    | (rcases byAxis_shape _ _ _ _ _ _ ht with rfl | rfl | rfl <;> simp [isEdgeAttr] at ha)
    | (simp at ht; obtain ⟨_, rfl⟩ := ht; simp [isEdgeAttr] at ha)

/-- C09: one arbitrary legal call changes the presence of an edge only as the edge calls should. -/
theorem c09_step (g : Grid) (op : GOp) (hl : op.Legal g) (m : MIdx) (e : Dir) :
    (g.step op).hasEdge m e = edgeEffect g m e (g.hasEdge m e) op := by
  by_cases h1 : ∃ n d b i, op = .addEdge n d b i
  · obtain ⟨n, d, b, i, rfl⟩ := h1
    simp only [Grid.step, edgeEffect]
    cases hr : (g.addEdge n d b i).2
    · simp [(c09_add g n d b i).2 hr]
    · rw [((c09_add g n d b i).1 hr).2.2.2 m e]; simp
  by_cases h2 : ∃ n d, op = .removeEdge n d
  · obtain ⟨n, d, rfl⟩ := h2
    simp only [Grid.step, edgeEffect]
    by_cases hon : g.On n ∧ g.On (n.nbr d) ∧ d ≠ .UNKNOWN
    · rw [((c09_remove g n d).1 hon).2 m e]; have := hon.2.2; simp only [hon, and_true, true_and, ne_eq, this, not_false_eq_true]
    · rw [(c09_remove g n d).2 hon]
      have : ¬ (SameEdge n d m e ∧ g.On n ∧ g.On (n.nbr d) ∧ d ≠ .UNKNOWN) := fun h => hon h.2
      simp only [this, if_false]
  · have h1' : ∀ n d b i, op ≠ .addEdge n d b i := fun n d b i h => h1 ⟨n, d, b, i, h⟩
    have h2' : ∀ n d, op ≠ .removeEdge n d := fun n d h => h2 ⟨n, d, h⟩
    have he : edgeEffect g m e (g.hasEdge m e) op = g.hasEdge m e := by
      cases op <;> first | rfl | exact absurd rfl (h1' _ _ _ _) | exact absurd rfl (h2' _ _)
    rw [he, hasEdge_key, hasEdge_key]
    cases hk : edgeKey m e with
    | none => rfl
    | some p =>
      obtain ⟨k, a⟩ := p
      simp only [step_isValid g op hl]
      by_cases hv : g.isValid k = true
      · rw [c08_single_attribute g op hl k a ((on_iff _ _).2 hv)
          (target_not_edge op k a (edgeKey_attr _ _ _ _ hk) h1' h2')]
      · simp [hv]

/-- state after each prefix: the edge presence that the sequence of edge calls should produce -/
def edgeTrace (m : MIdx) (e : Dir) : Grid → Bool → List GOp → Bool
  | _, b, [] => b
  | g, b, op :: ops => edgeTrace m e (g.step op) (edgeEffect g m e b op) ops

/-- C09 over histories: after any sequence of legal calls, an edge is present exactly as
determined by the edge calls on that edge alone, and is seen identically from both ends. -/
theorem c09_history (ops : List GOp) : ∀ (g : Grid), (∀ op ∈ ops, op.Legal g) → ∀ m e,
    (g.run ops).hasEdge m e = edgeTrace m e g (g.hasEdge m e) ops ∧
    (g.run ops).hasEdge m e = (g.run ops).hasEdge (m.nbr e) e.opp := by
  induction ops with
  | nil => intro g _ m e; exact ⟨rfl, c09_symmetric g m e⟩
  | cons op ops ih =>
    intro g hl m e
    have h1 := hl op (by simp)
    refine ⟨?_, c09_symmetric _ _ _⟩
    have := (ih (g.step op) (fun o ho => legal_step g op o h1 (hl o (by simp [ho]))) m e).1
    simp only [edgeTrace]
    rw [← c09_step g op h1]
    exact this

theorem on_step (g : Grid) (op : GOp) (hl : op.Legal g) (n : MIdx) : (g.step op).On n ↔ g.On n := by
  rw [on_iff, on_iff, step_isValid g op hl]

/-- C09: starting from a grid whose edges all stay on the grid (e.g. the empty grid), no history
of legal calls ever produces an edge leaving the grid. -/
theorem c09_edges_stay_on_grid (ops : List GOp) : ∀ (g : Grid), (∀ op ∈ ops, op.Legal g) →
    (∀ n d, g.hasEdge n d = true → g.On n ∧ g.On (n.nbr d)) →
    ∀ n d, (g.run ops).hasEdge n d = true → g.On n ∧ g.On (n.nbr d) := by
  induction ops with
  | nil => intro g _ h n d; exact h n d
  | cons op ops ih =>
    intro g hl h n0 d0 hh0
    have h1 := hl op (by simp)
    have hl' : ∀ o ∈ ops, o.Legal (g.step op) := fun o ho => legal_step g op o h1 (hl o (by simp [ho]))
    have := ih (g.step op) hl' ?_ n0 d0 hh0
    · rw [on_step g op h1, on_step g op h1] at this; exact this
    · intro n d hh
      rw [on_step g op h1, on_step g op h1]
      rw [c09_step g op h1] at hh
      have keep : g.hasEdge n d = true → g.On n ∧ g.On (n.nbr d) := h n d
      cases op <;> simp only [edgeEffect] at hh
      case addEdge n' d' b i =>
        split at hh
        · rename_i hc
          obtain ⟨a1, a2, a3, _⟩ := (c09_add g n' d' b i).1 hc.2
          rcases hc.1 with ⟨rfl, rfl⟩ | ⟨rfl, rfl⟩
          · exact ⟨a1, a2⟩
          · refine ⟨a2, ?_⟩
            have : (n'.nbr d').nbr d'.opp = n' := by
              rcases n' with ⟨a, b, c⟩
              cases d' <;> simp [MIdx.nbr, Dir.opp, Dir.delta] <;> omega
            rw [this]; exact a1
        · exact keep hh
      case removeEdge n' d' =>
        split at hh
        · simp at hh
        · exact keep hh
      all_goals exact keep hh

example : (demoGrid.addEdge ⟨1, 1, 0⟩ .W ⟨⟨0, 0⟩, ⟨30, 20⟩⟩ false).2 = true ∧
    ((demoGrid.addEdge ⟨1, 1, 0⟩ .W ⟨⟨0, 0⟩, ⟨30, 20⟩⟩ false).1).hasEdge ⟨0, 1, 0⟩ .E = true ∧
    (demoGrid.addEdge ⟨0, 1, 0⟩ .W ⟨⟨0, 0⟩, ⟨30, 20⟩⟩ false).2 = false := by decide

/-- C09: a guarded call never writes outside the node array, whatever its arguments. -/
theorem c09_guarded_ops_stay_inside (g : Grid) (op : GOp) (hg : op.guarded = true) (j : Int)
    (hj : j < 0 ∨ (g.xs.length : Int) * g.ys.length * g.zs.length ≤ j) :
    (g.step op).bits j = g.bits j := by
  rcases step_normal g op (Or.inl hg) with h | ⟨n, a, v, _, h2, h3⟩
  · rw [h]
  · rw [h3]
    have := idx_range g h2
    simp only [Grid.X, Grid.Y, Grid.Z] at this
    have hne : j ≠ g.idx n := by intro e; rw [e] at hj; rcases hj with hj | hj <;> omega
    simp [Grid.put, Grid.upd, hne]

end TR
