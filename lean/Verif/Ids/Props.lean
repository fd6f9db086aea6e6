import Verif.Ids.Made

/-!
# C207: objects are never confused by the numbers they are told apart by

In English: whatever library and design are read, two different cells, instances, nets, terminals
(of the design or of its instances) or obstructions never have the same number, and the numbers
follow the order of the files.  So the sets ordered by these numbers hold every object put into
them, and are gone through in the order of the files, not of addresses.  The same holds of the pins
of a routing region and of the wires of a track assignment panel.
-/

namespace TR

/-- The files are read to the end just if every component names a cell of the library, no two
components have one name, and no pin has several ports. -/
theorem c207_accepted (lef : List IdMacro) (ds : List IdDef) :
    (idRead lef ds).isSome ↔
      (∀ i c, IdDef.comp i c ∈ ds → ∃ m ∈ lef, m.name = c) ∧ (idCompNames ds).Nodup ∧
      ∀ n p, IdDef.pin n p ∈ ds → p = false := by
  unfold idRead
  rw [idDefs_ok]
  have hi : (lef.foldl idMacro idInit).insts = [] := (idLef_inv lef idInit idInit_inv).insts
  rw [hi]
  simp only [idLef_known]
  simp [idInit]

/-- Of two objects that can meet in a set the one made first has the smaller number; no cell has
the number of the design, no net that of the made up supply nets. -/
theorem c207_ids (lef : List IdMacro) (ds : List IdDef) (s : IdSt) (e : idRead lef ds = some s) :
    (∀ (i j : Nat) a b, s.log[i]? = some a → s.log[j]? = some b → i < j → IdMeet a b →
      a.id < b.id) ∧
    (∀ a ∈ s.all .cell, a.id ≠ idTop) ∧ (∀ a ∈ s.all .net, a.id ≠ idFake) := by
  have h := idRead_inv e
  refine ⟨?_, ?_, ?_⟩
  · intro i j a b ha hb hij hm
    obtain ⟨hi, rfl⟩ := List.getElem?_eq_some_iff.1 ha
    obtain ⟨hj, rfl⟩ := List.getElem?_eq_some_iff.1 hb
    exact List.pairwise_iff_getElem.1 h.ord i j hi hj hij hm
  · intro a ha
    simp only [IdSt.all, List.mem_filter, decide_eq_true_eq] at ha
    have := h.cell a ha.1 ha.2
    simp only [idTop]
    omega
  · intro a ha
    simp only [IdSt.all, List.mem_filter, decide_eq_true_eq] at ha
    have := h.net a ha.1 ha.2
    simp only [idFake]
    omega

/-- What is made is what the files list: every cell, with its pins and obstructions, every
component, with one terminal for each pin and one obstruction for each obstruction of the last cell
of the name it gives, every net, pin and blockage. -/
theorem c207_objects (lef : List IdMacro) (ds : List IdDef) (s : IdSt)
    (e : idRead lef ds = some s) :
    (s.all .cell).map (·.owner) = lef.map (·.name) ∧
    (∀ (i : Nat) m, lef[i]? = some m →
      ((s.all .cellTerm).filter (fun o => o.home = (i : Int))).map (·.pos) = List.range (idNumPins m) ∧
      ((s.all .cellBlk).filter (fun o => o.home = (i : Int))).map (·.pos) = List.range (idNumObs m)) ∧
    (s.all .inst).map (·.owner) = idCompNames ds ∧
    (∀ i c, IdDef.comp i c ∈ ds → ∃ m, IdLast lef c m ∧
      (s.of .instTerm i).map (·.pos) = List.range (idNumPins m) ∧
      (s.of .instBlk i).map (·.pos) = List.range (idNumObs m)) ∧
    (∀ o ∈ s.all .instTerm ++ s.all .instBlk, o.owner ∈ idCompNames ds) ∧
    (s.all .net).map (·.owner) = idNetNames ds ∧ (s.all .term).map (·.owner) = idPinNames ds ∧
    (s.all .blk).length = idNumBlks ds := by
  obtain ⟨M, hM, h⟩ := idDefs_made ds _ s e
  have hk := (idLef_inv lef idInit idInit_inv).kinds
  have hcells := idLef_cells lef idInit
  obtain ⟨L, hL, _, hitems⟩ := idLef_items lef idInit
  have hname := idLef_name2 lef idInit
  rw [show idInit.log ++ L = L from rfl] at hL
  simp only [show idInit.nRef = 0 from rfl, Int.zero_add] at hitems
  generalize lef.foldl idMacro idInit = s0 at *
  rw [hL] at hk hM hcells
  have hlef : ∀ k, k ≠ .cell → k ≠ .cellTerm → k ≠ .cellBlk → ∀ p : IdObj → Bool,
      L.filter (fun o => decide (o.kind = k) && p o) = [] := by
    intro k h1 h2 h3 p
    apply filter_none
    intro o ho
    have := hk o ho
    simp only [Bool.and_eq_false_iff, decide_eq_false_iff_not]
    left
    rintro rfl
    grind
  have hdef : ∀ k, k = .cell ∨ k = .cellTerm ∨ k = .cellBlk →
      M.filter (fun o => decide (o.kind = k)) = [] := by
    intro k hk
    apply filter_none
    intro o ho
    have := h.kinds o ho
    rw [decide_eq_false_iff_not]
    rintro rfl
    grind
  have hall : ∀ k, k ≠ .cell → k ≠ .cellTerm → k ≠ .cellBlk →
      s.all k = M.filter (fun o => decide (o.kind = k)) := by
    intro k h1 h2 h3
    unfold IdSt.all
    rw [hM, List.filter_append]
    have := hlef k h1 h2 h3 (fun _ => true)
    simp only [Bool.and_true] at this
    rw [this, List.nil_append]
  have hof : ∀ k i, k ≠ .cell → k ≠ .cellTerm → k ≠ .cellBlk →
      s.of k i = M.filter (fun o => decide (o.kind = k ∧ o.owner = i)) := by
    intro k i h1 h2 h3
    unfold IdSt.of
    rw [hM, List.filter_append]
    have := hlef k h1 h2 h3 (fun o => decide (o.owner = i))
    simp only [← Bool.decide_and] at this
    rw [this, List.nil_append]
  have hall2 : ∀ k, k = .cell ∨ k = .cellTerm ∨ k = .cellBlk →
      s.all k = L.filter (fun o => decide (o.kind = k)) := by
    intro k hk
    unfold IdSt.all
    rw [hM, List.filter_append, hdef k hk, List.append_nil]
  refine ⟨?_, ?_, ?_, ?_, ?_, ?_, ?_, ?_⟩
  · rw [hall2 _ (.inl rfl), hcells]; simp [idInit]
  · intro i m hm
    have := hitems i m hm
    rw [hall2 _ (.inr (.inl rfl)), hall2 _ (.inr (.inr rfl)), List.filter_filter,
      List.filter_filter]
    refine ⟨?_, ?_⟩
    · rw [← this.1]
      congr 1
      apply List.filter_congr
      intro o _
      rw [Bool.decide_and, Bool.and_comm]
    · rw [← this.2]
      congr 1
      apply List.filter_congr
      intro o _
      rw [Bool.decide_and, Bool.and_comm]
  · rw [hall _ (by simp) (by simp) (by simp)]; exact h.insts
  · intro i c hc
    obtain ⟨np, nb, h1, h2, h3⟩ := h.comp i c hc
    rw [hof _ _ (by simp) (by simp) (by simp), hof _ _ (by simp) (by simp) (by simp)]
    rcases hname c _ h1 with ⟨m, hm, hv⟩ | ⟨hv, _⟩
    · simp only [Prod.mk.injEq] at hv
      exact ⟨m, hm, by rw [h2, hv.1], by rw [h3, hv.2]⟩
    · simp [idInit] at hv
  · intro o ho
    rw [hall _ (by simp) (by simp) (by simp), hall _ (by simp) (by simp) (by simp)] at ho
    simp only [List.mem_append, List.mem_filter, decide_eq_true_eq] at ho
    have : ∃ c, IdDef.comp o.owner c ∈ ds := by
      rcases ho with h1 | h1
      · exact h.owners o h1.1 (.inl h1.2)
      · exact h.owners o h1.1 (.inr h1.2)
    obtain ⟨c, hc⟩ := this
    simp only [idCompNames, List.mem_filterMap]
    exact ⟨_, hc, rfl⟩
  · rw [hall _ (by simp) (by simp) (by simp)]; exact h.nets
  · rw [hall _ (by simp) (by simp) (by simp)]; exact h.terms
  · rw [hall _ (by simp) (by simp) (by simp)]; exact h.blks

theorem idSorted_ext {l m : List IdObj} (hl : l.Pairwise (fun a b => a.id < b.id))
    (hm : m.Pairwise (fun a b => a.id < b.id)) (h : ∀ x, x ∈ l ↔ x ∈ m) : l = m := by
  induction l generalizing m with
  | nil =>
    cases m with
    | nil => rfl
    | cons b r => exact absurd ((h b).2 (List.mem_cons_self ..)) List.not_mem_nil
  | cons a r ih =>
    cases m with
    | nil => exact absurd ((h a).1 (List.mem_cons_self ..)) List.not_mem_nil
    | cons b t =>
      rw [List.pairwise_cons] at hl hm
      have hab : a = b := by
        rcases List.mem_cons.1 ((h a).1 (List.mem_cons_self ..)) with h1 | h1
        · exact h1
        · rcases List.mem_cons.1 ((h b).2 (List.mem_cons_self ..)) with h2 | h2
          · exact h2.symm
          · have := hl.1 b h2
            have := hm.1 a h1
            omega
      subst hab
      congr 1
      refine ih hl.2 hm.2 fun x => ?_
      have := h x
      simp only [List.mem_cons] at this
      constructor
      · intro hx
        rcases this.1 (.inr hx) with h1 | h1
        · subst h1; have := hl.1 x hx; omega
        · exact h1
      · intro hx
        rcases this.2 (.inr hx) with h1 | h1
        · subst h1; have := hm.1 x hx; omega
        · exact h1

/-- A set ordered by the numbers, filled in any order and with any repetitions with objects that can
meet, holds exactly these, in the order in which the files list them. -/
theorem c207_sets (lef : List IdMacro) (ds : List IdDef) (s : IdSt) (e : idRead lef ds = some s)
    (os : List IdObj) (hin : ∀ o ∈ os, o ∈ s.log) (hmeet : ∀ a ∈ os, ∀ b ∈ os, IdMeet a b) :
    idSet os = s.log.filter (fun o => o ∈ os) := by
  have hord := (idRead_inv e).ord
  have hflt : (s.log.filter (fun o => decide (o ∈ os))).Pairwise (fun a b => a.id < b.id) := by
    rw [List.pairwise_filter]
    refine hord.imp ?_
    intro a b h ha hb
    exact h (hmeet a (by simpa using ha) b (by simpa using hb))
  have hinj : ∀ a ∈ os, ∀ b ∈ os, a.id = b.id → a = b := by
    intro a ha b hb hid
    have h1 : a ∈ s.log.filter (fun o => decide (o ∈ os)) := by simp [hin a ha, ha]
    have h2 : b ∈ s.log.filter (fun o => decide (o ∈ os)) := by simp [hin b hb, hb]
    obtain ⟨i, hi, rfl⟩ := List.mem_iff_getElem.1 h1
    obtain ⟨j, hj, rfl⟩ := List.mem_iff_getElem.1 h2
    have hp := List.pairwise_iff_getElem.1 hflt
    rcases Nat.lt_trichotomy i j with h | h | h
    · have := hp i j hi hj h; omega
    · subst h; rfl
    · have := hp j i hj hi h; omega
  have hs := idSet_aux os [] List.Pairwise.nil (by simpa using hinj)
  refine idSorted_ext hs.2 hflt fun x => ?_
  refine (hs.1 x).trans ?_
  simp only [List.not_mem_nil, false_or, List.mem_filter, decide_eq_true_eq]
  exact ⟨fun h => ⟨hin x h, h⟩, fun h => h.2⟩

/-- The pins of a routing region: each net has one pin for each terminal and each crossing of the
boundary, and no two pins of the region, of whatever net, have the same number. -/
theorem c207_region (ns : List (Nat × Nat)) :
    (idNets ns 0 0).length = ns.length ∧
    (∀ (i nt nb : Nat), ns[i]? = some (nt, nb) → ∃ ps, (idNets ns 0 0)[i]? = some (i, ps) ∧
      ps.map (fun p => (p.net, p.pos, p.bound)) =
        (List.range (nt + nb)).map (fun k => (i, k, decide (nt ≤ k)))) ∧
    (idDr ns).Pairwise (fun a b => a.id ≠ b.id) := by
  have hmap : ∀ net bound n k c, (idPins net bound n k c).1.map (fun p => (p.net, p.pos, p.bound)) =
      (List.range' k n).map (fun j => (net, j, bound)) := by
    intro net bound n
    induction n with
    | zero => intro k c; simp [idPins]
    | succ n ih => intro k c; simp only [idPins, List.map_cons, ih, List.range'_succ]
  have gen : ∀ (ns : List (Nat × Nat)) (o : Nat) (c : Int), (idNets ns o c).length = ns.length ∧
      ∀ (i nt nb : Nat), ns[i]? = some (nt, nb) → ∃ ps, (idNets ns o c)[i]? = some (o + i, ps) ∧
      ps.map (fun p => (p.net, p.pos, p.bound)) =
        (List.range (nt + nb)).map (fun k => (o + i, k, decide (nt ≤ k))) := by
    intro ns
    induction ns with
    | nil => intro o c; simp [idNets]
    | cons x r ih =>
      intro o c
      obtain ⟨a, b⟩ := x
      simp only [idNets]
      refine ⟨by simp [(ih _ _).1], ?_⟩
      intro i nt nb h
      cases i with
      | zero =>
        simp only [List.getElem?_cons_zero, Option.some.injEq, Prod.mk.injEq] at h
        obtain ⟨rfl, rfl⟩ := h
        refine ⟨_, rfl, ?_⟩
        rw [List.map_append, hmap, hmap, List.range_eq_range', ← List.range'_append_1, List.map_append]
        congr 1
        · apply List.map_congr_left
          intro k hk
          rw [List.mem_range'_1] at hk
          have : ¬ a ≤ k := by omega
          simp [this]
        · rw [Nat.zero_add]
          apply List.map_congr_left
          intro k hk
          rw [List.mem_range'_1] at hk
          simp [hk.1]
      | succ i =>
        rw [List.getElem?_cons_succ] at h
        obtain ⟨ps, h1, h2⟩ := (ih (o + 1) (idPins o true b a (idPins o false a 0 c).2).2).2 i nt nb h
        refine ⟨ps, ?_, ?_⟩
        · rw [List.getElem?_cons_succ, h1]
          congr 2
          omega
        · rw [h2]
          apply List.map_congr_left
          intro k _
          congr 1
          omega
  refine ⟨(gen ns 0 0).1, ?_, ?_⟩
  · intro i nt nb h
    simpa using (gen ns 0 0).2 i nt nb h
  · refine (idNets_pw ns 0 0).1.imp ?_
    intro a b h
    omega

/-- The wires of a panel: all are kept, inside or outside as asked, and no two have the same
number. -/
theorem c207_panel (bs : List Bool) :
    (idTa bs ([], [])).1.length = bs.count false ∧ (idTa bs ([], [])).2.length = bs.count true ∧
    ((idTa bs ([], [])).1 ++ (idTa bs ([], [])).2).Nodup := by
  have gen : ∀ (bs : List Bool) (a b : List Nat), (a ++ b).Nodup →
      (∀ x ∈ a ++ b, x < a.length + b.length) →
      (idTa bs (a, b)).1.length = a.length + bs.count false ∧
      (idTa bs (a, b)).2.length = b.length + bs.count true ∧
      ((idTa bs (a, b)).1 ++ (idTa bs (a, b)).2).Nodup := by
    intro bs
    induction bs with
    | nil => intro a b h _; simpa [idTa] using h
    | cons x r ih =>
      intro a b h hl
      have hfresh : a.length + b.length ∉ a ++ b := fun hm => by have := hl _ hm; omega
      cases x with
      | true =>
        simp only [idTa]
        have h1 := ih a (b ++ [a.length + b.length]) (by
          rw [← List.append_assoc, List.nodup_append]
          refine ⟨h, by simp, ?_⟩
          intro p hp q hq
          simp only [List.mem_singleton] at hq
          subst hq
          intro e
          exact hfresh (e ▸ hp)) (by
          intro p hp
          rw [← List.append_assoc] at hp
          simp only [List.length_append, List.length_singleton]
          rcases List.mem_append.1 hp with hp | hp
          · have := hl p hp; omega
          · simp only [List.mem_singleton] at hp; omega)
        refine ⟨by rw [h1.1]; simp, ?_, h1.2.2⟩
        rw [h1.2.1]
        simp
        omega
      | false =>
        simp only [idTa]
        have h1 := ih (a ++ [a.length + b.length]) b (by
          rw [List.append_assoc]
          have hp : (a ++ ([a.length + b.length] ++ b)).Perm ((a.length + b.length) :: (a ++ b)) :=
            List.perm_middle
          rw [hp.nodup_iff, List.nodup_cons]
          exact ⟨hfresh, h⟩) (by
          intro p hp
          simp only [List.length_append, List.length_singleton]
          have : p ∈ a ++ b ∨ p = a.length + b.length := by
            simp only [List.mem_append, List.mem_singleton] at hp ⊢
            rcases hp with (hp | hp) | hp
            · exact .inl (.inl hp)
            · exact .inr hp
            · exact .inl (.inr hp)
          rcases this with hp | hp
          · have := hl p hp; omega
          · omega)
        refine ⟨?_, by rw [h1.2.1]; simp, h1.2.2⟩
        rw [h1.1]
        simp
        omega
  simpa using gen bs [] [] (by simp) (by simp)

/-- The two supply nets that are made up have one number: a set ordered by the numbers keeps only
the first of them. -/
theorem c207_made_up_nets (o1 o2 : IdObj) (h1 : o1.id = idFake) (h2 : o2.id = idFake) :
    idSet [o1, o2] = [o1] := by
  simp [idSet, idInsert, h1, h2]

/-! A library with two versions of a cell, and a design with two instances, read to the end. -/
def idExLef : List IdMacro :=
  [⟨"INV", [.pin, .obs, .pin]⟩, ⟨"BUF", [.pin]⟩, ⟨"INV", [.pin, .pin, .pin]⟩]
def idExDef : List IdDef :=
  [.comp "u1" "INV", .pin "clk" false, .comp "u2" "BUF", .blockage, .net "VDD" true, .net "n1" false]

example : (idRead idExLef idExDef).isSome := by decide +kernel
example : ((idRead idExLef idExDef).map (fun s => s.log.map (fun o => (o.kind, o.owner, o.id)))) =
    some [(.cellTerm, "INV", 0), (.cellBlk, "INV", 0), (.cellTerm, "INV", 1), (.cell, "INV", 1),
      (.cellTerm, "BUF", 0), (.cell, "BUF", 2), (.cellTerm, "INV", 0), (.cellTerm, "INV", 1),
      (.cellTerm, "INV", 2), (.cell, "INV", 3), (.inst, "u1", 0), (.instTerm, "u1", 0),
      (.instTerm, "u1", 1), (.instTerm, "u1", 2), (.term, "clk", 3), (.inst, "u2", 1),
      (.instTerm, "u2", 4), (.blk, "", 0), (.net, "VDD", 0), (.net, "n1", 1)] := by decide +kernel
example : IdMeet ⟨.instTerm, "u1", 0, 0, 0⟩ ⟨.term, "clk", 0, 0, 3⟩ := by simp [IdMeet]
example : (idDr [(2, 1), (0, 2)]).map (·.id) = [0, 1, 2, 3, 4] := by decide
example : idTa [false, true, false] ([], []) = ([0, 2], [1]) := by decide
example : (idRead idExLef (.comp "u1" "BUF" :: idExDef)).isSome = false := by decide +kernel

end TR
