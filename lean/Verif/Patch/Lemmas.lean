import Verif.Patch.Spec
/-! The loop over the points of a path handles one run after the other. -/
namespace TR

theorem runsOf_ne (p : MIdx) (ps : List MIdx) : ∃ qs rs, runsOf (p :: ps) = (p :: qs) :: rs := by
  simp only [runsOf]
  split
  · split
    · exact ⟨_, _, rfl⟩
    · exact ⟨_, _, rfl⟩
  · exact ⟨_, _, rfl⟩

theorem runsOf_same (z : Int) : ∀ (cur : List MIdx), cur ≠ [] → (∀ p ∈ cur, p.z = z) → runsOf cur = [cur]
  | [], h, _ => absurd rfl h
  | [p], _, _ => rfl
  | p :: q :: cs, _, hz => by
    have := runsOf_same z (q :: cs) (by simp) (fun x hx => hz x (by simp [List.mem_cons.1 hx]))
    rw [runsOf, this]
    simp [hz p (by simp), hz q (by simp)]

theorem runsOf_change (z : Int) (q : MIdx) (rest : List MIdx) (hq : q.z ≠ z) :
    ∀ (cur : List MIdx), cur ≠ [] → (∀ p ∈ cur, p.z = z) → runsOf (cur ++ q :: rest) = cur :: runsOf (q :: rest)
  | [], h, _ => absurd rfl h
  | [p], _, hz => by
    obtain ⟨qs, rs, h⟩ := runsOf_ne q rest
    rw [List.singleton_append, runsOf, h]
    have : p.z ≠ q.z := by rw [hz p (by simp)]; exact Ne.symm hq
    simp [this]
  | p :: q' :: cs, _, hz => by
    have := runsOf_change z q rest hq (q' :: cs) (by simp) (fun x hx => hz x (by simp [List.mem_cons.1 hx]))
    rw [List.cons_append, runsOf, this]
    simp [hz p (by simp), hz q' (by simp)]

theorem centreLen_snoc (g : Grid) (q : MIdx) : ∀ (cur : List MIdx) (p : MIdx), cur.getLast? = some p →
    centreLen g (cur ++ [q]) = centreLen g cur +
      ((coordAt g.xs p.x - coordAt g.xs q.x).natAbs + (coordAt g.ys p.y - coordAt g.ys q.y).natAbs)
  | [], _, h => by simp at h
  | [a], p, h => by
    simp only [List.getLast?_singleton, Option.some.injEq] at h
    subst h
    simp [centreLen]
  | a :: b :: cs, p, h => by
    have := centreLen_snoc g q (b :: cs) p (by simpa [List.getLast?_cons_cons] using h)
    simp only [List.cons_append] at this ⊢
    simp only [centreLen, this]
    omega

theorem patchSide_eq (horz : Bool) (p q o : MIdx) : patchSide horz p q o = goesLeft horz p q o := by
  unfold patchSide goesLeft alongIdx
  dsimp only
  suffices h : ∀ a b c : Int, (if a < b then true else if a > b then false else decide (a < c)) =
      decide (a < b ∨ (a = b ∧ a < c)) from h _ _ _
  intro a b c
  by_cases h1 : a < b
  · simp [h1]
  · by_cases h2 : a > b
    · rw [if_neg h1, if_pos h2]
      have : ¬ (a < b ∨ a = b ∧ a < c) := by omega
      simp [this]
    · rw [if_neg h1, if_neg h2]
      have : a = b := by omega
      simp [this]

/-- The window of the current run in the list of points. -/
structure Window (pts cur rest : List MIdx) (a i : Nat) (z : Int) : Prop where
  split : pts.drop a = cur ++ rest
  len : i = a + cur.length
  ne : cur ≠ []
  lvl : ∀ p ∈ cur, p.z = z

theorem getD_left {l r : List MIdx} {k : Nat} (h : k < l.length) (d : MIdx) : (l ++ r).getD k d = l.getD k d := by
  simp [List.getD_eq_getElem?_getD, List.getElem?_append_left h]

theorem Window.at {pts cur rest a i z} (h : Window pts cur rest a i z) (k : Nat) :
    ptAt pts (a + k) = (cur ++ rest).getD k ⟨0, 0, 0⟩ := by
  unfold ptAt
  rw [← h.split]
  simp [List.getD_eq_getElem?_getD, List.getElem?_drop]

theorem Window.last {pts cur rest a i z} (h : Window pts cur rest a i z) :
    cur.getLast? = some (ptAt pts (i - 1)) ∧ ptAt pts (i - 1) = cur.getLastD ⟨0, 0, 0⟩ ∧ (ptAt pts (i - 1)).z = z := by
  have hl : 0 < cur.length := List.length_pos_iff.2 h.ne
  have e : i - 1 = a + (cur.length - 1) := by have := h.len; omega
  have : ptAt pts (i - 1) = cur.getLastD ⟨0, 0, 0⟩ := by
    rw [e, h.at, getD_left (by omega), List.getLastD_eq_getLast?, List.getLast?_eq_getElem?,
      List.getD_eq_getElem?_getD]
  have h2 : cur.getLast? = some (cur.getLastD ⟨0, 0, 0⟩) := by
    rw [List.getLastD_eq_getLast?]
    cases hc : cur.getLast? with
    | none => exact absurd (List.getLast?_eq_none_iff.1 hc) h.ne
    | some x => rfl
  exact ⟨by rw [this]; exact h2, this, by rw [this]; exact h.lvl _ (List.mem_of_getLast? h2)⟩

theorem Window.req {pts cur rest a i z} (h : Window pts cur rest a i z) (T : PatchTech) (area s e : Int) :
    patchReqOf T pts a i area s e =
      { bp := cur.headD ⟨0, 0, 0⟩, ep := cur.getLastD ⟨0, 0, 0⟩, gap := T.req z - (area - s - e) - min s e,
        bpLeft := sideAt (T.horz z) true (cur.getLastD ⟨0, 0, 0⟩) cur
        epLeft := sideAt (T.horz z) false (cur.headD ⟨0, 0, 0⟩) cur.reverse } := by
  obtain ⟨_, l2, l3⟩ := h.last
  have hl : 0 < cur.length := List.length_pos_iff.2 h.ne
  have h0 : ptAt pts a = cur.headD ⟨0, 0, 0⟩ := by
    have := h.at 0
    rw [Nat.add_zero] at this
    rw [this, getD_left (by omega)]
    cases cur <;> rfl
  unfold patchReqOf
  dsimp only
  rw [l3, l2]
  split
  · rename_i hi
    have : cur.length = 1 := by have := h.len; omega
    obtain ⟨p, rfl⟩ := List.length_eq_one_iff.1 this
    rfl
  · rename_i hi
    have hlen : 2 ≤ cur.length := by have := h.len; omega
    have h1 : ptAt pts (a + 1) = cur.getD 1 ⟨0, 0, 0⟩ := by
      rw [h.at, getD_left (by omega)]
    have h2 : ptAt pts (i - 2) = cur.reverse.getD 1 ⟨0, 0, 0⟩ := by
      have e : i - 2 = a + (cur.length - 2) := by have := h.len; omega
      rw [e, h.at, getD_left (by omega), List.getD_eq_getElem?_getD, List.getD_eq_getElem?_getD,
        List.getElem?_reverse (by omega)]
      congr 2
    rw [h0, h1, h2, patchSide_eq, patchSide_eq]
    congr 1
    · rcases cur with _ | ⟨p, _ | ⟨q, cs⟩⟩
      · simp at hlen
      · simp at hlen
      · rfl
    · have hr : cur.getLastD ⟨0, 0, 0⟩ = cur.reverse.headD ⟨0, 0, 0⟩ := by
        rw [List.getLastD_eq_getLast?, List.headD_eq_head?_getD, List.head?_reverse]
      rw [hr]
      have hlen' : 2 ≤ cur.reverse.length := by rw [List.length_reverse]; exact hlen
      generalize cur.reverse = rc at *
      rcases rc with _ | ⟨p, _ | ⟨q, cs⟩⟩
      · exact absurd hlen' (by simp)
      · exact absurd hlen' (by simp)
      · rfl

/-- the running area: exact, or already sufficient like the exact one -/
def AreaOK (req area exact : Int) : Prop := area = exact ∨ (req ≤ area ∧ req ≤ exact)

/-- The rest of the loop handles the current run and the ones after it. -/
theorem patch_loop (g : Grid) (T : PatchTech) (amap : MIdx → Option Int) (hw : ∀ z, 0 ≤ T.width z) (pts : List MIdx) :
    ∀ (rest cur : List MIdx) (a i : Nat) (z : Int) (st : PatchSt) (before : Option Int) (b : Int),
    Window pts cur rest a i z → st.prevI = a → st.start = viaHalf T z before →
    b = (PathRun.atStart ⟨before, cur, none⟩ T amap) →
    AreaOK (T.req z) st.area (b + centreLen g cur * T.width z) →
    (∀ k, k + 1 < pts.length → ((ptAt pts k).z - (ptAt pts (k + 1)).z).natAbs ≤ 1) →
    (∀ z', 0 ≤ (T.halfEnc z').1 ∧ 0 ≤ (T.halfEnc z').2) → (∀ n v, amap n = some v → 0 ≤ v) →
    patchLast T amap pts ((List.range' i rest.length).foldl (patchStep g T pts) st) =
      st.out ++ (situate before (runsOf (cur ++ rest))).filterMap (fun r => r.need g T amap) := by
  intro rest
  induction rest with
  | nil =>
    intro cur a i z st before b hwin hp hs hb ha hne hhalf hmap
    obtain ⟨l1, l2, l3⟩ := hwin.last
    have hn : pts.length = i := by
      have := congrArg List.length hwin.split
      have h1 := hwin.len
      have hl : 0 < cur.length := List.length_pos_iff.2 hwin.ne
      simp only [List.length_drop, List.length_append, List.length_nil] at this
      omega
    have hz : levelOf cur = z := by
      rcases cur with _ | ⟨p, cs⟩
      · exact absurd rfl hwin.ne
      · exact hwin.lvl p (by simp)
    simp only [List.length_nil, List.range'_zero, List.foldl_nil, List.append_nil]
    rw [runsOf_same z cur hwin.ne hwin.lvl]
    simp only [situate, List.head?_nil, Option.map_none, List.filterMap_cons, List.filterMap_nil]
    unfold patchLast
    dsimp only
    rw [hn, l2] at *
    have hlv : (PathRun.level ⟨before, cur, none⟩) = z := hz
    have harea : (PathRun.area ⟨before, cur, none⟩ g T amap) =
        b + centreLen g cur * T.width z + (amap (cur.getLastD ⟨0, 0, 0⟩)).getD 0 := by
      rw [hb]; unfold PathRun.area PathRun.wire PathRun.atEnd
      rw [hlv]; rfl
    have hnn : 0 ≤ (amap (cur.getLastD ⟨0, 0, 0⟩)).getD 0 := by
      cases hm : amap (cur.getLastD ⟨0, 0, 0⟩) with
      | none => simp
      | some v => exact hmap _ _ hm
    rw [l3]
    unfold PathRun.need
    rw [hlv, harea]
    rcases ha with ha | ⟨ha1, ha2⟩
    · rw [ha]
      split
      · rw [hp, hwin.req, hs]
        rfl
      · simp
    · rw [if_neg (by omega), if_neg (by omega)]
      simp
  | cons q rest ih =>
    intro cur a i z st before b hwin hp hs hb ha hne hhalf hmap
    obtain ⟨l1, l2, l3⟩ := hwin.last
    have hl : 0 < cur.length := List.length_pos_iff.2 hwin.ne
    have hq : ptAt pts i = q := by
      rw [hwin.len, hwin.at]
      simp [List.getD_eq_getElem?_getD]
    have hz : levelOf cur = z := by
      rcases cur with _ | ⟨p, cs⟩
      · exact absurd rfl hwin.ne
      · exact hwin.lvl p (by simp)
    simp only [List.length_cons, List.range'_succ, List.foldl_cons]
    by_cases hqz : q.z = z
    · -- another point on the level
      have hwin' : Window pts (cur ++ [q]) rest a (i + 1) z := by
        refine ⟨by rw [hwin.split]; simp, by rw [hwin.len, List.length_append]; rfl, by simp, ?_⟩
        intro p hp
        rcases List.mem_append.1 hp with h | h
        · exact hwin.lvl p h
        · rw [List.mem_singleton] at h; subst h; exact hqz
      have hstep : patchStep g T pts st i =
          (if st.area < T.req z then
            { st with area := st.area + (((coordAt g.xs (ptAt pts (i - 1)).x - coordAt g.xs q.x).natAbs +
              (coordAt g.ys (ptAt pts (i - 1)).y - coordAt g.ys q.y).natAbs : Nat) : Int) * T.width z } else st) := by
        unfold patchStep
        dsimp only
        rw [hq, l3, if_neg (by rw [hqz]; simp)]
      have hc := centreLen_snoc g q cur _ l1
      have hex : b + (centreLen g (cur ++ [q]) : Nat) * T.width z = b + centreLen g cur * T.width z +
          (((coordAt g.xs (ptAt pts (i - 1)).x - coordAt g.xs q.x).natAbs +
              (coordAt g.ys (ptAt pts (i - 1)).y - coordAt g.ys q.y).natAbs : Nat) : Int) * T.width z := by
        rw [hc, Int.natCast_add, Int.add_mul]; omega
      have hnn : 0 ≤ (((coordAt g.xs (ptAt pts (i - 1)).x - coordAt g.xs q.x).natAbs +
              (coordAt g.ys (ptAt pts (i - 1)).y - coordAt g.ys q.y).natAbs : Nat) : Int) * T.width z :=
        Int.mul_nonneg (Int.natCast_nonneg _) (hw z)
      have hb' : b = PathRun.atStart ⟨before, cur ++ [q], none⟩ T amap := by
        rw [hb]
        rcases cur with _ | ⟨p, cs⟩
        · exact absurd rfl hwin.ne
        · rfl
      have key := ih (cur ++ [q]) a (i + 1) z (patchStep g T pts st i) before b hwin'
        (by rw [hstep]; split <;> exact hp) (by rw [hstep]; split <;> exact hs) hb'
        (by
          rw [hstep, hex]
          rcases ha with ha | ⟨ha1, ha2⟩
          · split
            · left; show st.area + _ = _; rw [ha]
            · right; omega
          · rw [if_neg (by omega)]; right; omega) hne hhalf hmap
      rw [key]
      have ho : (patchStep g T pts st i).out = st.out := by rw [hstep]; split <;> rfl
      rw [ho, List.append_assoc, List.singleton_append]
    · -- a via
      have hwin' : Window pts [q] rest i (i + 1) q.z := by
        refine ⟨?_, by simp, by simp, by simp⟩
        have := congrArg (List.drop cur.length) hwin.split
        rw [List.drop_drop, ← hwin.len] at this
        rw [this]; simp
      have hlv : ∀ af, (PathRun.level ⟨before, cur, af⟩) = z := fun _ => hz
      have he : viaHalf T z (some q.z) = (if q.z < z then T.half (z - 1) false else T.half z true) := rfl
      have hadj : (z - q.z).natAbs ≤ 1 := by
        have h1 : i - 1 + 1 = i := by have := hwin.len; omega
        have h2 := congrArg List.length hwin.split
        simp only [List.length_drop, List.length_append, List.length_cons] at h2
        have := hne (i - 1) (by have := hwin.len; omega)
        rw [h1, hq, l3] at this
        exact this
      have hs' : viaHalf T q.z (some z) = (if q.z < z then T.half (z - 1) true else T.half z false) := by
        simp only [viaHalf, PatchTech.half]
        by_cases h : q.z < z
        · rw [if_neg (by omega), if_pos h, show z - 1 = q.z by omega]; rfl
        · rw [if_pos (by omega), if_neg h, show q.z - 1 = z by omega]; rfl
      have hlvl : (PathRun.level ⟨before, cur, some q.z⟩) = z := hz
      have harea : (PathRun.area ⟨before, cur, some q.z⟩ g T amap) =
          b + centreLen g cur * T.width z + viaHalf T z (some q.z) := by
        rw [hb]; unfold PathRun.area PathRun.wire PathRun.atEnd
        rw [hlvl]; rfl
      have hnn : 0 ≤ viaHalf T z (some q.z) := by
        simp only [viaHalf]; split
        · exact (hhalf _).2
        · exact (hhalf _).1
      have hout : (patchStep g T pts st i).out =
          st.out ++ ((PathRun.need ⟨before, cur, some q.z⟩ g T amap).toList) := by
        unfold patchStep
        dsimp only
        rw [hq, l3, if_pos hqz, ← he]
        dsimp only
        unfold PathRun.need
        rw [hlvl, harea]
        rcases ha with ha | ⟨ha1, ha2⟩
        · rw [ha]
          split
          · rw [hp, hwin.req, hs]; rfl
          · simp
        · rw [if_neg (by omega), if_neg (by omega)]; simp
      have hst : (patchStep g T pts st i).area = viaHalf T q.z (some z) ∧
          (patchStep g T pts st i).start = viaHalf T q.z (some z) ∧ (patchStep g T pts st i).prevI = i := by
        unfold patchStep
        dsimp only
        rw [hq, l3, if_pos hqz, hs']
        exact ⟨rfl, rfl, rfl⟩
      have key := ih [q] i (i + 1) q.z (patchStep g T pts st i) (some z) (viaHalf T q.z (some z)) hwin' hst.2.2 hst.2.1
        rfl (by left; rw [hst.1]; simp [centreLen]) hne hhalf hmap
      rw [key, hout, runsOf_change z q rest hqz cur hwin.ne hwin.lvl]
      obtain ⟨qs, rs, hr⟩ := runsOf_ne q rest
      rw [List.singleton_append]
      simp only [situate, List.filterMap_cons, hz]
      rw [hr]
      simp only [List.head?_cons, Option.map_some, levelOf, List.headD_cons]
      cases PathRun.need ⟨before, cur, some q.z⟩ g T amap <;> simp

end TR
