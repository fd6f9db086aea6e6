import Verif.Seek.NearInv
/-! The loop of the costed abstract search. -/
namespace TR.AbsC
open Abs

variable {K : Type}

/-- `top` hands out an entry of least total cost -/
def MinTop (S : Sys K) (top : List (CE K) → Nat) : Prop :=
  ∀ q : List (CE K), q ≠ [] → ∃ a, q[top q]? = some a ∧ ∀ b ∈ q, S.fc a.k ≤ S.fc b.k

theorem st_erase (s : CSt K) (i : Nat) : (CSt.st ⟨s.q.eraseIdx i, s.prev⟩) = ⟨s.st.q.eraseIdx i, s.prev⟩ := by
  simp only [CSt.st, St.mk.injEq, and_true]
  generalize s.q = q
  induction q generalizing i with
  | nil => simp
  | cons a q ih => cases i <;> simp_all

theorem st_expandAllC (S : Sys K) (a : CE K) (s : CSt K) :
    (expandAllC S a s).st = expandAll S.V a.e s.st := st_foldC S a _ s

theorem inv_eraseC {S : Sys K} {nodes} {s : CSt K} {i : Nat} (h : Abs.Inv S.V nodes s.st) :
    Abs.Inv S.V nodes (CSt.st ⟨s.q.eraseIdx i, s.prev⟩) := by
  rw [st_erase]
  exact fun e he => h e (List.mem_of_mem_eraseIdx he)

theorem mem_st {s : CSt K} {a : CE K} (h : a ∈ s.q) : a.e ∈ s.st.q := List.mem_map.2 ⟨a, h, rfl⟩

/-- a property of entries that every push keeps holds of the entry the loop returns -/
theorem loopC_entry {S : Sys K} {nodes} (hE : EdgesIn S.V nodes) (top : List (CE K) → Nat) (P : CE K → Prop)
    (hP : ∀ a d, P a → S.V.edge a.e.n d = true → P (pushC S a d)) (f : Nat) :
    ∀ (s s' : CSt K) (a : CE K), Abs.Inv S.V nodes s.st → (∀ b ∈ s.q, P b) →
      loopC S top f s = some (s', some a) →
      P a ∧ EntOK S.V nodes s'.prev a.e ∧ S.V.dst a.e.n = true := by
  induction f with
  | zero => intro s s' a _ _ h; simp [loopC] at h
  | succ f ih =>
    intro s s' a hi hp h
    simp only [loopC] at h
    split at h
    · simp at h
    · rename_i b hq
      have hb : b ∈ s.q := List.mem_of_getElem? hq
      have hbok := hi b.e (mem_st hb)
      have hi' := inv_eraseC (i := top s.q) hi
      have hp' : ∀ c ∈ s.q.eraseIdx (top s.q), P c := fun c hc => hp c (List.mem_of_mem_eraseIdx hc)
      split at h
      · exact ih _ _ _ hi' hp' h
      · split at h
        · rename_i hd
          simp only [Option.some.injEq, Prod.mk.injEq] at h
          obtain ⟨h1, h2⟩ := h
          subst h1; subst h2
          exact ⟨hp _ hb, hbok, hd⟩
        · rename_i hnd
          refine ih _ _ _ ?_ ?_ h
          · rw [st_expandAllC]
            exact inv_expand hE hi' hbok (by simpa using hnd)
          · unfold expandAllC
            by_cases ht : tailOK s.prev b.e
            · rw [fold_okC S b _ ⟨s.q.eraseIdx (top s.q), s.prev⟩ ht]
              intro c hc
              rcases List.mem_append.1 hc with hc | hc
              · exact hp' c hc
              · obtain ⟨d, hdm, rfl⟩ := List.mem_map.1 hc
                have hx : expandable S.V s.prev b.e d := by simpa using (List.mem_filter.1 hdm).2
                exact hP b d (hp b hb) hx.1
            · rw [fold_failC S b _ ⟨s.q.eraseIdx (top s.q), s.prev⟩ ht]
              exact hp'

/-- the entry found costs at most the relaxed cost of any path to a destination -/
theorem loopC_near {S : Sys K} (ok : S.OK) {nodes} (hE : EdgesIn S.V nodes) (top : List (CE K) → Nat)
    (htop : MinTop S top) (f : Nat) :
    ∀ (s s' : CSt K) (a : CE K), Abs.Inv S.V nodes s.st → SrcFree S.V s.prev →
      (∃ SB FE F, Track S s SB FE F) → loopC S top f s = some (s', some a) →
      ∀ r ds, S.V.src r = true → PathV S.V r ds → S.V.dst (endOf r ds) = true →
        (∀ l, S.est (endOf r ds) l = 0) → S.pc a.k ≤ S.bound r ds := by
  induction f with
  | zero => intro s s' a _ _ _ h; simp [loopC] at h
  | succ f ih =>
    intro s s' a hi hsf ht0 h
    obtain ⟨SB, FE, F, htr⟩ := ht0
    simp only [loopC] at h
    split at h
    · simp at h
    · rename_i b hq
      have hb : b ∈ s.q := List.mem_of_getElem? hq
      have hbok := hi b.e (mem_st hb)
      have hi' := inv_eraseC (i := top s.q) hi
      have hmin : ∀ c ∈ s.q, S.fc b.k ≤ S.fc c.k := by
        obtain ⟨x, hx, hx2⟩ := htop s.q (List.ne_nil_of_mem hb)
        rw [hq] at hx
        simp only [Option.some.injEq] at hx
        subst hx; exact hx2
      split at h
      · rename_i hl
        exact ih _ _ _ hi' hsf ⟨SB, FE, _, track_skip ok hq hmin htr hsf hl⟩ h
      · split at h
        · rename_i hd
          simp only [Option.some.injEq, Prod.mk.injEq] at h
          obtain ⟨h1, h2⟩ := h
          subst h1; subst h2
          intro r ds hr hp hdst h0
          obtain ⟨c, hc, h1, h2, h3⟩ := htr.roots r hr
          have := frontier_bound ok htr hsf ds r 0 hp hdst h0 (by
            rcases hc with hc | hc
            · exact Or.inl ⟨c, hc, h1, by omega, Or.inl (hsf r hr)⟩
            · exact Or.inr ⟨c, hc, h1, by omega⟩)
          obtain ⟨e, he, h4⟩ := this
          have h5 := hmin e he
          have h6 := (htr.ent b hb).1
          omega
        · rename_i hl hnd
          have hnd : S.V.dst b.e.n = false := by simpa using hnd
          refine ih _ _ _ ?_ ?_ ?_ h
          · rw [st_expandAllC]
            exact inv_expand hE hi' hbok hnd
          · have := srcFree_expand (V := S.V) (e := b.e) (s := CSt.st ⟨s.q.eraseIdx (top s.q), s.prev⟩) hbok.shape hsf
            rw [← st_expandAllC] at this
            exact this
          · by_cases ht : tailOK s.prev b.e
            · exact (track_serve ok hq hmin htr hbok.shape (fun n d h => (hE n d h).2.2) (by simpa using hl) hnd ht).imp
                fun _ ⟨FE', h⟩ => ⟨FE', _, h⟩
            · have := track_fail hq hmin htr hbok.shape ht
              unfold expandAllC
              rw [fold_failC S b _ ⟨s.q.eraseIdx (top s.q), s.prev⟩ ht]
              exact ⟨SB, FE, _, this⟩

/-- the state at the start -/
def initC (comps : List MIdx) (k0 : MIdx → K) : CSt K :=
  ⟨comps.map (fun n => ⟨⟨n, .UNKNOWN, .UNKNOWN, [n]⟩, k0 n⟩), fun _ => .UNKNOWN⟩

theorem initC_st (comps : List MIdx) (k0 : MIdx → K) :
    (initC comps k0).st = ⟨comps.map (fun n => ⟨n, .UNKNOWN, .UNKNOWN, [n]⟩), fun _ => .UNKNOWN⟩ := by
  simp [initC, CSt.st]

theorem track_init {S : Sys K} (comps : List MIdx) (k0 : MIdx → K) (hr : ∀ r, S.V.src r = true → r ∈ comps)
    (h0 : ∀ n, S.pc (k0 n) = 0) (hf : ∀ n, S.fc (k0 n) = S.est n .UNKNOWN) :
    Track S (initC comps k0) (fun _ => False) (fun _ => False) 0 where
  ent := by
    intro a ha
    obtain ⟨n, _, rfl⟩ := List.mem_map.1 ha
    exact ⟨by show S.fc (k0 n) = S.pc (k0 n) + S.est n .UNKNOWN; rw [h0, hf]; omega, Nat.zero_le _⟩
  sbent := by intro _ h; exact h.elim
  nodst := by intro _ h; exact h.elim
  label := by intro v hv; exact absurd rfl hv
  parent := by
    intro c hc h1
    obtain ⟨n, _, rfl⟩ := List.mem_map.1 hc
    exact absurd rfl h1
  sbparent := by intro _ h; exact h.elim
  fert := by intro _ h; exact h.elim
  infert := by intro _ h; exact h.elim
  roots := by
    intro r h
    exact ⟨_, Or.inr (List.mem_map.2 ⟨r, hr r h, rfl⟩), rfl, rfl, h0 r⟩
  block := by intro _ h; exact h.elim
  cover := by intro _ _ h; exact h.elim

end TR.AbsC
