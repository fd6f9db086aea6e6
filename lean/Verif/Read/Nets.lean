import Verif.Read.Inv
namespace TR

theorem namedBy_lt {lib : List RCell} {rs : List DefRec} {j : Nat} {r : PinRef} (h : NamedBy lib rs j r) :
    j < (netsOf rs).length := by
  obtain ⟨pre, n, post, rfl, rfl, _⟩ := h
  unfold netsOf
  rw [List.filterMap_append, List.filterMap_cons]
  simp only [List.length_append, List.length_cons]; omega

theorem namedBy_snoc (lib : List RCell) (pre : List DefRec) (x : DefRec) (j : Nat) (r : PinRef) :
    NamedBy lib (pre ++ [x]) j r ↔ NamedBy lib pre j r ∨
      ∃ n, x = .net n ∧ j = (netsOf pre).length ∧ ∃ c ∈ n.conns, Names lib pre c r := by
  constructor
  · rintro ⟨a, n, b, hab, hj, hc⟩
    rcases List.eq_nil_or_concat b with rfl | ⟨b', y, rfl⟩
    · have h2 : pre = a ∧ x = .net n := by
        have := List.append_inj' hab rfl
        simpa using this
      obtain ⟨rfl, rfl⟩ := h2
      exact Or.inr ⟨n, rfl, hj.symm, hc⟩
    · left
      have h2 : pre = a ++ .net n :: b' ∧ x = y := by
        rw [List.concat_eq_append, ← List.cons_append, ← List.append_assoc] at hab
        have := List.append_inj' hab rfl
        simpa using this
      exact ⟨a, n, b', h2.1, hj, hc⟩
  · rintro (⟨a, n, b, rfl, hj, hc⟩ | ⟨n, rfl, rfl, hc⟩)
    · exact ⟨a, n, b ++ [x], by simp, hj, hc⟩
    · exact ⟨pre, n, [], rfl, rfl, hc⟩

/-- a net of the design is the one of the file with its number -/
structure NetIs (E : REnv) (rs : List DefRec) (N : RNet) (n : DefNet) : Prop where
  name : N.name = n.name
  use : useKind n.use = some N.use
  pins : ∀ r, r ∈ N.pins ↔ NamedBy E.lib rs N.id r

structure NetInv (E : REnv) (pre : List DefRec) (B : RBlock) : Prop where
  place : PlaceInv E pre B
  num : B.nNet = (netsOf pre).length
  nets : ∀ N ∈ B.nets, ∃ n, (netsOf pre)[N.id]? = some n ∧ n.special = false ∧ NetIs E pre N n
  snets : ∀ N ∈ B.snets, ∃ n, (netsOf pre)[N.id]? = some n ∧ n.special = true ∧ NetIs E pre N n
  all : ∀ (j : Nat) (n : DefNet), (netsOf pre)[j]? = some n → ∃ N, N.id = j ∧ (if n.special then N ∈ B.snets else N ∈ B.nets)
  ordN : B.nets.Pairwise (fun a b => a.id < b.id)
  ordS : B.snets.Pairwise (fun a b => a.id < b.id)
  back : ∀ r j, B.pinNet r = some j ↔ NamedBy E.lib pre j r ∧ ∀ k, j < k → ¬ NamedBy E.lib pre k r

theorem namedBy_other {lib : List RCell} {pre : List DefRec} {x : DefRec} (hx : ∀ n, x ≠ .net n) (j : Nat)
    (r : PinRef) : NamedBy lib (pre ++ [x]) j r ↔ NamedBy lib pre j r := by
  rw [namedBy_snoc]
  constructor
  · rintro (h | ⟨n, h, _⟩)
    · exact h
    · exact absurd h (hx n)
  · exact Or.inl

theorem NetInv.other {E : REnv} {pre : List DefRec} {B B' : RBlock} {x : DefRec} (h : NetInv E pre B)
    (hx : ∀ n, x ≠ .net n) (hp : PlaceInv E (pre ++ [x]) B') (e1 : B'.nets = B.nets) (e2 : B'.snets = B.snets)
    (e3 : B'.pinNet = B.pinNet) (e4 : B'.nNet = B.nNet) : NetInv E (pre ++ [x]) B' := by
  have hn : netsOf (pre ++ [x]) = netsOf pre := by
    rw [netsOf_snoc]; cases x <;> simp_all
  obtain ⟨_, h2, h3, h4, h5, h6, h7, h8⟩ := h
  refine ⟨hp, by rw [e4, hn]; exact h2, ?_, ?_, ?_, by rw [e1]; exact h6, by rw [e2]; exact h7, ?_⟩
  · intro N hN
    rw [e1] at hN
    obtain ⟨n, a, b, c⟩ := h3 N hN
    exact ⟨n, by rw [hn]; exact a, b, c.name, c.use, fun r => by rw [namedBy_other hx]; exact c.pins r⟩
  · intro N hN
    rw [e2] at hN
    obtain ⟨n, a, b, c⟩ := h4 N hN
    exact ⟨n, by rw [hn]; exact a, b, c.name, c.use, fun r => by rw [namedBy_other hx]; exact c.pins r⟩
  · intro j n hj
    rw [hn] at hj
    rw [e1, e2]; exact h5 j n hj
  · intro r j
    rw [e3, h8]
    simp only [namedBy_other hx]

theorem readNets (E : REnv) (pre : List DefRec) (r : DefRec) (B B' : RBlock) (h : NetInv E pre B)
    (hr : readRec E B r = some B') : NetInv E (pre ++ [r]) B' := by
  have hp := readPlace E pre r B B' h.place hr
  cases r with
  | tracks t =>
    simp only [readRec, readTracks, Option.bind_eq_some_iff] at hr
    obtain ⟨l, _, hr⟩ := hr
    split at hr
    · simp only [Option.some.injEq] at hr; subst hr
      exact h.other (by intro n hn; cases hn) hp rfl rfl rfl rfl
    · split at hr
      · simp only [Option.some.injEq] at hr; subst hr
        exact h.other (by intro n hn; cases hn) hp rfl rfl rfl rfl
      · cases hr
  | via v =>
    have : B'.nets = B.nets ∧ B'.snets = B.snets ∧ B'.pinNet = B.pinNet ∧ B'.nNet = B.nNet := by
      simp only [readRec, readVia] at hr
      split at hr
      · simp only [Option.map_eq_some_iff] at hr; obtain ⟨_, _, rfl⟩ := hr; exact ⟨rfl, rfl, rfl, rfl⟩
      · split at hr
        · cases hr
        · split at hr
          · simp only [Option.some.injEq] at hr; subst hr; exact ⟨rfl, rfl, rfl, rfl⟩
          · simp only [Option.map_eq_some_iff] at hr; obtain ⟨_, _, rfl⟩ := hr; exact ⟨rfl, rfl, rfl, rfl⟩
    exact h.other (by intro n hn; cases hn) hp this.1 this.2.1 this.2.2.1 this.2.2.2
  | comp c =>
    simp only [readRec, readComp, Option.bind_eq_some_iff] at hr
    obtain ⟨cell, hc, hr⟩ := hr
    split at hr
    · cases hr
    · simp only [Option.some.injEq] at hr; subst hr
      exact h.other (by intro n hn; cases hn) hp rfl rfl rfl rfl
  | pin p =>
    simp only [readRec, readPin, Option.bind_eq_some_iff] at hr
    obtain ⟨u, hu, hr⟩ := hr
    split at hr
    · cases hr
    · simp only [Option.bind_eq_some_iff, Option.map_eq_some_iff] at hr
      obtain ⟨a, ha, b, hb, rfl⟩ := hr
      exact h.other (by intro n hn; cases hn) hp rfl rfl rfl rfl
  | blk b =>
    have : B'.nets = B.nets ∧ B'.snets = B.snets ∧ B'.pinNet = B.pinNet ∧ B'.nNet = B.nNet := by
      simp only [readRec, Option.some.injEq] at hr
      subst hr
      unfold readBlk
      dsimp only
      split
      · split
        · exact ⟨rfl, rfl, rfl, rfl⟩
        · split <;> exact ⟨rfl, rfl, rfl, rfl⟩
      · split <;> exact ⟨rfl, rfl, rfl, rfl⟩
    exact h.other (by intro n hn; cases hn) hp this.1 this.2.1 this.2.2.1 this.2.2.2
  | net n =>
    simp only [readRec, readNet, Option.bind_eq_some_iff, Option.map_eq_some_iff] at hr
    obtain ⟨ps, hps, f, _, u, hu, rfl⟩ := hr
    obtain ⟨h1, h2, h3, h4, h5, h6, h7, h8⟩ := h
    have hnet : netsOf (pre ++ [.net n]) = netsOf pre ++ [n] := by rw [netsOf_snoc]
    have hold : ∀ (j : Nat) (m : DefNet), (netsOf pre)[j]? = some m → (netsOf (pre ++ [.net n]))[j]? = some m := by
      intro j m hm
      rw [hnet, List.getElem?_append, if_pos (List.getElem?_eq_some_iff.1 hm).1]; exact hm
    have hlast : (netsOf (pre ++ [.net n]))[B.nNet]? = some n := by
      rw [hnet, h2, List.getElem?_append, if_neg (by omega)]; simp
    have hby : ∀ j r, NamedBy E.lib (pre ++ [.net n]) j r ↔ NamedBy E.lib pre j r ∨ (j = B.nNet ∧ r ∈ ps) := by
      intro j r
      rw [namedBy_snoc, connsPins_names E pre B h1 n.conns ps hps r, h2]
      constructor
      · rintro (h | ⟨m, he, h, hc⟩)
        · exact Or.inl h
        · cases he; exact Or.inr ⟨h, hc⟩
      · rintro (h | ⟨h, hc⟩)
        · exact Or.inl h
        · exact Or.inr ⟨n, rfl, h, hc⟩
    have hnot : ∀ r, ¬ NamedBy E.lib pre B.nNet r := by
      intro r hr; have := namedBy_lt hr; omega
    have hlt : ∀ N ∈ B.nets ++ B.snets, N.id < B.nNet := by
      intro N hN
      rw [List.mem_append] at hN
      rcases hN with hN | hN
      · obtain ⟨m, hm, _⟩ := h3 N hN
        have := (List.getElem?_eq_some_iff.1 hm).1; omega
      · obtain ⟨m, hm, _⟩ := h4 N hN
        have := (List.getElem?_eq_some_iff.1 hm).1; omega
    have keep : ∀ N m, N ∈ B.nets ++ B.snets → NetIs E pre N m → NetIs E (pre ++ [.net n]) N m := by
      intro N m hN hm
      refine ⟨hm.name, hm.use, ?_⟩
      intro r
      rw [hby, hm.pins]
      constructor
      · exact Or.inl
      · rintro (h | ⟨h, _⟩)
        · exact h
        · have := hlt N hN; omega
    have hnew : NetIs E (pre ++ [.net n]) ⟨B.nNet, n.name, ps, u, f.1, f.2⟩ n := by
      refine ⟨rfl, hu, ?_⟩
      intro r
      rw [hby]
      constructor
      · intro h; exact Or.inr ⟨rfl, h⟩
      · rintro (h | ⟨_, h⟩)
        · exact absurd h (hnot r)
        · exact h
    refine ⟨hp, by simp [hnet, h2], ?_, ?_, ?_, ?_, ?_, ?_⟩
    · intro N hN
      cases hs : n.special with
      | true =>
        simp only [hs, if_true] at hN
        obtain ⟨m, a, b, c⟩ := h3 N hN
        exact ⟨m, hold _ _ a, b, keep N m (List.mem_append.2 (Or.inl hN)) c⟩
      | false =>
        simp only [hs, Bool.false_eq_true, if_false, List.mem_append, List.mem_singleton] at hN
        rcases hN with hN | rfl
        · obtain ⟨m, a, b, c⟩ := h3 N hN
          exact ⟨m, hold _ _ a, b, keep N m (List.mem_append.2 (Or.inl hN)) c⟩
        · exact ⟨n, hlast, hs, hnew⟩
    · intro N hN
      cases hs : n.special with
      | false =>
        simp only [hs, Bool.false_eq_true, if_false] at hN
        obtain ⟨m, a, b, c⟩ := h4 N hN
        exact ⟨m, hold _ _ a, b, keep N m (List.mem_append.2 (Or.inr hN)) c⟩
      | true =>
        simp only [hs, if_true, List.mem_append, List.mem_singleton] at hN
        rcases hN with hN | rfl
        · obtain ⟨m, a, b, c⟩ := h4 N hN
          exact ⟨m, hold _ _ a, b, keep N m (List.mem_append.2 (Or.inr hN)) c⟩
        · exact ⟨n, hlast, hs, hnew⟩
    · intro j m hj
      rw [hnet, List.getElem?_append] at hj
      by_cases hjl : j < (netsOf pre).length
      · rw [if_pos hjl] at hj
        obtain ⟨N, e, hN⟩ := h5 j m hj
        refine ⟨N, e, ?_⟩
        cases hm : m.special
        · simp only [hm, Bool.false_eq_true, if_false] at hN ⊢
          split
          · exact hN
          · exact List.mem_append.2 (Or.inl hN)
        · simp only [hm, if_true] at hN ⊢
          split
          · exact List.mem_append.2 (Or.inl hN)
          · exact hN
      · rw [if_neg hjl] at hj
        have e : j = (netsOf pre).length := by
          rcases Nat.lt_or_ge (j - (netsOf pre).length) 1 with h0 | h0
          · omega
          · rw [List.getElem?_eq_none (by simpa using h0)] at hj; cases hj
        subst e
        simp only [Nat.sub_self, List.getElem?_cons_zero, Option.some.injEq] at hj
        subst hj
        refine ⟨⟨B.nNet, n.name, ps, u, f.1, f.2⟩, h2, ?_⟩
        cases hm : n.special <;> simp [hm]
    · cases hs : n.special with
      | true => simp only [hs, if_true]; exact h6
      | false =>
        simp only [hs, Bool.false_eq_true, if_false]
        rw [List.pairwise_append]
        refine ⟨h6, List.pairwise_singleton _ _, ?_⟩
        intro a ha b hb
        simp only [List.mem_singleton] at hb; subst hb
        exact hlt a (List.mem_append.2 (Or.inl ha))
    · cases hs : n.special with
      | false => simp only [hs, Bool.false_eq_true, if_false]; exact h7
      | true =>
        simp only [hs, if_true]
        rw [List.pairwise_append]
        refine ⟨h7, List.pairwise_singleton _ _, ?_⟩
        intro a ha b hb
        simp only [List.mem_singleton] at hb; subst hb
        exact hlt a (List.mem_append.2 (Or.inr ha))
    · intro r j
      dsimp only
      simp only [hby]
      by_cases hr : r ∈ ps
      · simp only [hr, if_true, Option.some.injEq, and_true]
        constructor
        · rintro rfl
          refine ⟨Or.inr rfl, ?_⟩
          rintro k hk (h | h)
          · have := namedBy_lt h; omega
          · omega
        · rintro ⟨h | h, hk⟩
          · exact absurd (Or.inr rfl) (hk B.nNet (by have := namedBy_lt h; omega))
          · exact h.symm
      · simp only [hr, if_false, and_false, or_false]
        exact h8 r j

theorem netInv (E : REnv) (vs : List RViaDef) (rs : List DefRec) (B : RBlock) (h : readDesign E vs rs = some B) :
    NetInv E rs B := by
  refine readRecs_inv E (P := NetInv E) _ ?_ (fun pre r B B' => readNets E pre r B B') rs B h
  refine ⟨⟨Pointwise.nil _, Pointwise.nil _, rfl, List.Pairwise.nil⟩, rfl, ?_, ?_, ?_, List.Pairwise.nil,
    List.Pairwise.nil, ?_⟩
  · intro N hN; cases hN
  · intro N hN; cases hN
  · intro j n hj; simp [netsOf] at hj
  · intro r j
    constructor
    · intro h; cases h
    · rintro ⟨h, _⟩; have := namedBy_lt h; simp [netsOf] at this

end TR
