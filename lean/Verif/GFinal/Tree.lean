import Verif.GFinal.Spec
/-! The predecessors left by the search form a tree on the nodes that are kept. -/
namespace TR
variable {adj : Nat → List Nat} {g n pen : Nat}

/-- predecessors of the kept nodes: a tree rooted in `g`, along edges -/
def PrevTree (adj : Nat → List Nat) (g : Nat) (prev : Nat → Option Nat) (on : Nat → Bool) : Prop :=
  ∃ (ρ : Nat → Nat) (B : Nat), ∀ x, on x = true → ρ x < B ∧
    ((x = g ∧ prev x = none) ∨ ∃ p, prev x = some p ∧ on p = true ∧ x ∈ adj p ∧ ρ p < ρ x)

/-- the tree of the nodes visited in a round -/
def RoundTree (adj : Nat → List Nat) (g : Nat) (first : Bool) (on : Nat → Bool) (s : NS) : Prop :=
  ∃ r : Nat → Nat, ∃ B, (∀ x, s.vis x = true → r x < B) ∧
    ∀ x, s.vis x = true → on x = false →
      (s.prev x = none ∧ x = g ∧ first = true) ∨
      ∃ p, s.prev x = some p ∧ s.vis p = true ∧ x ∈ adj p ∧ (on p = true ∨ r p < r x)

theorem netPop_tree (pick : Nat → Nat) {first : Bool} {on : Nat → Bool} :
    ∀ (f k : Nat) (s : NS) (q : List Wf), (∀ x, on x = true → s.vis x = true) →
      (∀ e ∈ q, (on e.node = true ∧ e.prev = s.prev e.node) ∨ (first = true ∧ e.node = g ∧ e.prev = none) ∨
        ∃ p, e.prev = some p ∧ s.vis p = true ∧ e.node ∈ adj p) →
      (first = true → on g = false) → (∀ e ∈ q, on e.node = true → e.prev = s.prev e.node) →
      RoundTree adj g first on s →
      ∀ s' last, netPop adj g n pick on f k s q = some (s', last) →
        RoundTree adj g first on s' ∧ (∀ x, on x = true → s'.prev x = s.prev x ∧ s'.vis x = true) ∧ ∀ l, last = some l → s'.vis l = true
  | 0, _, _, _ => by intro _ _ _ _ _ s' last h; simp [netPop] at h
  | f + 1, k, s, q => by
    intro onVis qOk hfg hkeep tree s' last h
    rw [netPop] at h
    cases hq : q[pick k % q.length]? with
    | none =>
      rw [hq] at h
      simp only [Option.some.injEq, Prod.mk.injEq] at h
      obtain ⟨rfl, rfl⟩ := h
      exact ⟨tree, fun x hx => ⟨rfl, onVis x hx⟩, fun l hl => by cases hl⟩
    | some e =>
      rw [hq] at h
      dsimp only at h
      have hem : e ∈ q := List.mem_of_getElem? hq
      have hsub : ∀ x ∈ q.eraseIdx (pick k % q.length), x ∈ q := fun x hx => (List.eraseIdx_sublist _ _).subset hx
      by_cases c1 : (!on e.node && s.vis e.node) = true
      · rw [if_pos c1] at h
        exact netPop_tree pick f (k + 1) s _ onVis (fun x hx => qOk x (hsub x hx)) hfg (fun x hx => hkeep x (hsub x hx)) tree s' last h
      · rw [if_neg c1] at h
        have hn : ¬ (on e.node = false ∧ s.vis e.node = true) := by
          rintro ⟨h1, h2⟩; apply c1; rw [h1, h2]; rfl
        have htm : RoundTree adj g first on (s.mark e) := by
          refine tree_mark onVis tree ?_ hn
          rcases qOk e hem with h1 | h1 | h1
          · exact .inl h1.1
          · exact .inr (.inl h1)
          · exact .inr (.inr h1)
        have hprev : ∀ x, on x = true → (s.mark e).prev x = s.prev x := by
          intro x hx
          by_cases hxe : x = e.node
          · subst hxe
            simp only [NS.mark, upd_self]
            exact hkeep e hem hx
          · simp only [NS.mark, upd_ne _ _ hxe]
        have hvis : ∀ x, s.vis x = true → (s.mark e).vis x = true := fun x hx => (mark_vis s e x).2 (.inr hx)
        by_cases c2 : g < e.node ∧ e.node < n ∧ s.vis e.node = false
        · rw [if_pos c2] at h
          simp only [Option.some.injEq, Prod.mk.injEq] at h
          obtain ⟨rfl, rfl⟩ := h
          exact ⟨htm, fun x hx => ⟨hprev x hx, hvis x (onVis x hx)⟩, fun l hl => by cases hl; exact (mark_vis s e _).2 (.inl rfl)⟩
        · rw [if_neg c2] at h
          have hkeep' : ∀ x ∈ q.eraseIdx (pick k % q.length) ++ ((adj e.node).filter (fun m => !(s.mark e).vis m)).map (fun m => (⟨m, some e.node, e.cost + 1⟩ : Wf)),
              on x.node = true → x.prev = (s.mark e).prev x.node := by
            intro x hx ho
            rcases List.mem_append.1 hx with hx | hx
            · rw [hprev _ ho]; exact hkeep x (hsub x hx) ho
            · obtain ⟨m, hm, rfl⟩ := List.mem_map.1 hx
              have := (List.mem_filter.1 hm).2
              rw [hvis _ (onVis _ ho)] at this
              cases this
          have := netPop_tree pick f (k + 1) (s.mark e) _ (fun x hx => hvis x (onVis x hx)) (by
            intro x hx
            by_cases ho : on x.node = true
            · exact .inl ⟨ho, hkeep' x hx ho⟩
            · rcases List.mem_append.1 hx with hx | hx
              · rcases qOk x (hsub x hx) with h1 | h1 | ⟨p, h1, h2, h3⟩
                · exact absurd h1.1 ho
                · exact .inr (.inl h1)
                · exact .inr (.inr ⟨p, h1, hvis p h2, h3⟩)
              · obtain ⟨m, hm, rfl⟩ := List.mem_map.1 hx
                exact .inr (.inr ⟨e.node, rfl, (mark_vis s e _).2 (.inl rfl), (List.mem_filter.1 hm).1⟩)) hfg hkeep' htm s' last h
          exact ⟨this.1, fun x hx => ⟨(this.2.1 x hx).1.trans (hprev x hx), (this.2.1 x hx).2⟩, this.2.2⟩

theorem netTrace_closed {prev : Nat → Option Nat} {vis on : Nat → Bool}
    (hv : ∀ x p, vis x = true → on x = false → prev x = some p → vis p = true) :
    ∀ (f : Nat) (cur : Nat → Bool) (l : Option Nat) (on' : Nat → Bool), (∀ x, on x = true → cur x = true) → (∀ x, l = some x → vis x = true) →
      netTrace prev f cur l = some on' →
      (∀ x, cur x = true → on' x = true) ∧ (∀ x, l = some x → on' x = true) ∧
      ∀ x, on' x = true → cur x = true ∨ (vis x = true ∧ (prev x = none ∨ ∃ p, prev x = some p ∧ on' p = true))
  | 0, _, _, _ => by intro _ _ h; simp [netTrace] at h
  | f + 1, cur, none, on' => by
    intro _ _ h
    simp only [netTrace, Option.some.injEq] at h
    subst h
    exact ⟨fun _ h => h, fun x hx => (by cases hx), fun x hx => .inl hx⟩
  | f + 1, cur, some l, on' => by
    intro hc hl h
    rw [netTrace] at h
    by_cases c : cur l = true
    · rw [if_pos c] at h
      cases h
      exact ⟨fun _ h => h, fun x hx => (by cases hx; exact c), fun x hx => .inl hx⟩
    · rw [if_neg c] at h
      have hlv := hl l rfl
      have hlo : on l = false := by
        cases ho : on l with
        | false => rfl
        | true => exact absurd (hc l ho) c
      obtain ⟨a1, a2, a3⟩ := netTrace_closed hv f (upd cur l true) (prev l) on' (by
          intro x hx
          by_cases hxl : x = l
          · subst hxl; exact upd_self _ _ _
          · rw [upd_ne _ _ hxl]; exact hc x hx) (fun x hx => hv l x hlv hlo hx) h
      have hll : on' l = true := a1 l (upd_self _ _ _)
      refine ⟨?_, fun x hx => (by cases hx; exact hll), ?_⟩
      · intro x hx
        apply a1
        by_cases hxl : x = l
        · subst hxl; exact upd_self _ _ _
        · rw [upd_ne _ _ hxl]; exact hx
      · intro x hx
        rcases a3 x hx with h1 | h1
        · by_cases hxl : x = l
          · subst hxl
            right
            refine ⟨hlv, ?_⟩
            cases hp : prev x with
            | none => exact .inl rfl
            | some p => exact .inr ⟨p, rfl, a2 p hp⟩
          · rw [upd_ne _ _ hxl] at h1; exact .inl h1
        · exact .inr h1

theorem netRound_tree (pick : Nat → Nat) {fuel : Nat} {first : Bool} {s s' : NS} {on on' : Nat → Bool} (hvis : s.vis = on)
    (hf : first = true → ∀ x, on x = false) (ht : PrevTree adj g s.prev on)
    (h : netRound adj g n pen pick fuel first s on = some (s', on')) : s'.vis = on' ∧ PrevTree adj g s'.prev on' := by
  unfold netRound at h
  cases hp : netPop adj g n pick on fuel 0 s (netStart g n pen first s on) with
  | none => rw [hp] at h; cases h
  | some r =>
    obtain ⟨s1, last⟩ := r
    rw [hp] at h
    dsimp only at h
    cases htr : netTrace s1.prev fuel on last with
    | none => rw [htr] at h; cases h
    | some on1 =>
      rw [htr] at h
      simp only [Option.some.injEq, Prod.mk.injEq] at h
      obtain ⟨rfl, rfl⟩ := h
      have hq : ∀ e ∈ netStart g n pen first s on, (on e.node = true ∧ e.prev = s.prev e.node) ∨ (first = true ∧ e.node = g ∧ e.prev = none) := by
        intro e he
        unfold netStart at he
        split at he
        · rename_i hc
          rw [List.mem_singleton] at he
          subst he
          exact .inr ⟨hc, rfl, rfl⟩
        · obtain ⟨x, hx, rfl⟩ := List.mem_map.1 he
          exact .inl ⟨(List.mem_filter.1 hx).2, rfl⟩
      obtain ⟨⟨r, B, hB, htree⟩, hk, hl⟩ := netPop_tree (adj := adj) (g := g) pick fuel 0 s _ (by rw [hvis]; exact fun _ h => h)
        (fun e he => (hq e he).elim .inl (fun h => .inr (.inl h))) (fun h => hf h g) (by
          intro e he ho
          rcases hq e he with h | h
          · exact h.2
          · rw [hf h.1] at ho; cases ho) (by
          refine ⟨fun _ => 0, 1, fun _ _ => Nat.zero_lt_one, ?_⟩
          intro x hx hox
          rw [hvis, hox] at hx; cases hx) s1 last hp
      obtain ⟨t1, _, t3⟩ := netTrace_closed (vis := s1.vis) (on := on) (by
          intro x p hx hox hpx
          rcases htree x hx hox with h | ⟨p', h1, h2, _⟩
          · rw [h.1] at hpx; cases hpx
          · rw [h1] at hpx; cases hpx; exact h2) fuel on last on1 (fun _ h => h) (fun x hx => hl x hx) htr
      refine ⟨rfl, ?_⟩
      obtain ⟨ρ, C, hρ⟩ := ht
      refine ⟨fun x => if on x = true then ρ x else C + r x, C + B, ?_⟩
      intro x hx
      dsimp only
      by_cases ho : on x = true
      · rw [if_pos ho]
        obtain ⟨b1, b2⟩ := hρ x ho
        refine ⟨by omega, ?_⟩
        rw [(hk x ho).1]
        rcases b2 with b2 | ⟨p, b2, b3, b4, b5⟩
        · exact .inl b2
        · exact .inr ⟨p, b2, t1 p b3, b4, by rw [if_pos b3]; exact b5⟩
      · rw [if_neg ho]
        have hof : on x = false := by simpa using ho
        rcases t3 x hx with h1 | ⟨h1, h2⟩
        · exact absurd h1 ho
        · have := hB x h1
          refine ⟨by omega, ?_⟩
          rcases htree x h1 hof with h3 | ⟨p, h3, h4, h5, h6⟩
          · exact .inl ⟨h3.2.1, h3.1⟩
          · right
            rcases h2 with h2 | ⟨p', h2, h2'⟩
            · rw [h2] at h3; cases h3
            · rw [h3] at h2; cases h2
              refine ⟨p, h3, h2', h5, ?_⟩
              by_cases hop : on p = true
              · rw [if_pos hop]; have := (hρ p hop).1; omega
              · rw [if_neg hop]
                have := h6.resolve_left hop
                omega

theorem netRounds_tree (pick : Nat → Nat → Nat) {fuel : Nat} : ∀ (r i : Nat) (s : NS) (on : Nat → Bool) (s' : NS) (on' : Nat → Bool), s.vis = on →
    (i = 0 → ∀ x, on x = false) → PrevTree adj g s.prev on → netRounds adj g n pen pick fuel r i s on = some (s', on') →
    s'.vis = on' ∧ PrevTree adj g s'.prev on'
  | 0, i, s, on, s', on' => by
    intro hv _ ht h
    simp only [netRounds, Option.some.injEq, Prod.mk.injEq] at h
    obtain ⟨rfl, rfl⟩ := h
    exact ⟨hv, ht⟩
  | r + 1, i, s, on, s', on' => by
    intro hv h0 ht h
    rw [netRounds] at h
    cases hr : netRound adj g n pen (pick i) fuel (i == 0) s on with
    | none => rw [hr] at h; cases h
    | some o =>
      obtain ⟨s1, on1⟩ := o
      rw [hr] at h
      dsimp only at h
      obtain ⟨v1, t1⟩ := netRound_tree (pick i) hv (fun hi => h0 (by simpa using hi)) ht hr
      exact netRounds_tree pick r (i + 1) s1 on1 s' on' v1 (by omega) t1 h

end TR
