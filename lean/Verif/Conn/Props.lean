import Verif.Conn.Final
import Verif.Conn.SearchLemmas
/-! # Properties of wire merging and of the connectivity check (C30–C33, C47) -/
namespace TR

/-! ### C30: merging -/

/-- Merging keeps exactly the covered centre lines, for every set of wires. -/
theorem c30_merge_preserves_coverage {ws : List CWire} (hp : ∀ w ∈ ws, w.Proper) (l : Int) (horz : Bool) (p : Point) :
    (∃ w ∈ ws, w.CoversStep l horz p) ↔ ∃ w ∈ mergedWires ws, w.CoversStep l horz p := merged_cover hp l horz p

theorem mergedWires_pairwise {ws : List CWire} (hp : ∀ w ∈ ws, w.Proper) :
    (mergedWires ws).Pairwise (fun v w => ¬ v.Overlap w) := by
  have h0 : (mergeNet (ws.map some)).Pairwise (fun a b => ∀ v w, a = some v → b = some w → ¬ v.Overlap w) := by
    rw [List.pairwise_iff_getElem]
    intro i j hi hj hij v w hv hw
    refine merged_no_overlap hp (Nat.ne_of_lt hij) (List.getElem?_eq_some_iff.2 ⟨hi, hv⟩) (List.getElem?_eq_some_iff.2 ⟨hj, hw⟩)
  unfold mergedWires
  apply List.Pairwise.filterMap _ _ h0
  intro a b hab v hv w hw
  exact hab v w hv hw

/-- After merging, no two wires of the net overlap, and all are proper wires. -/
theorem c30_merged_wires_disjoint {ws : List CWire} (hp : ∀ w ∈ ws, w.Proper) :
    (mergedWires ws).Pairwise (fun v w => ¬ v.Overlap w) ∧ ∀ w ∈ mergedWires ws, w.Proper := by
  refine ⟨mergedWires_pairwise hp, ?_⟩
  intro w hw
  obtain ⟨i, hi⟩ := mem_mergedWires.1 hw
  obtain ⟨_, _, _, _, _, h, _⟩ := merged_entry hp hi
  exact h

/-- three overlapping wires and one apart, on one horizontal track, and a vertical one -/
def demoWires : List CWire :=
  [⟨2, ⟨0, 0⟩, ⟨5, 0⟩, true, false⟩, ⟨2, ⟨3, 0⟩, ⟨9, 0⟩, false, true⟩, ⟨2, ⟨20, 0⟩, ⟨30, 0⟩, true, true⟩,
   ⟨2, ⟨4, 0⟩, ⟨4, 7⟩, true, true⟩]

example : (∀ w ∈ demoWires, w.Proper) ∧ mergedWires demoWires =
    [⟨2, ⟨0, 0⟩, ⟨9, 0⟩, true, false⟩, ⟨2, ⟨20, 0⟩, ⟨30, 0⟩, true, true⟩, ⟨2, ⟨4, 0⟩, ⟨4, 7⟩, true, true⟩] := by
  refine ⟨?_, by decide⟩
  intro w hw
  simp [demoWires] at hw
  rcases hw with rfl | rfl | rfl | rfl <;> simp [CWire.Proper]

/-- Finding: with two groups of overlapping wires on a track, the second merged interval is written
into a wire of the *first* group, so the merged wire carries the end styles of an unrelated wire:
here [20,40] comes from two wires with extended ends but gets truncated ends. -/
theorem c30_style_from_other_group :
    mergedWires [⟨2, ⟨0, 0⟩, ⟨5, 0⟩, true, true⟩, ⟨2, ⟨3, 0⟩, ⟨9, 0⟩, true, true⟩,
      ⟨2, ⟨20, 0⟩, ⟨30, 0⟩, false, false⟩, ⟨2, ⟨25, 0⟩, ⟨40, 0⟩, false, false⟩] =
    [⟨2, ⟨0, 0⟩, ⟨9, 0⟩, true, true⟩, ⟨2, ⟨20, 0⟩, ⟨40, 0⟩, true, true⟩] := by decide

/-! ### C31: T-junctions -/

/-- On wires that overlap nowhere, the split lookup reports wire `i` at `n` exactly when `n` lies
strictly inside wire `i`. -/
theorem c31_split_lookup_exact {objs : List CObj} (hproper : ∀ w, .wire w ∈ objs → w.Proper)
    (hapart : ∀ (i j : Nat) (v w : CWire), i ≠ j → objs[i]? = some (.wire v) → objs[j]? = some (.wire w) → ¬ v.Overlap w)
    (n : Node) (horz : Bool) (m : Node) (i : Nat) :
    (m, i) ∈ splitHit objs n horz ↔ m = n ∧ ∃ w, objs[i]? = some (.wire w) ∧ w.StrictlyInside horz n := by
  have hc : CleanNet objs [] := ⟨hproper, hapart, by simp⟩
  rw [splitHit_iff hc]
  constructor
  · rintro ⟨h1, w, h2, h3, h4, h5⟩
    refine ⟨h1, w, h2, ?_⟩
    have hw := (hproper w (List.mem_of_getElem? h2)).1
    unfold CWire.splitKey at h3
    unfold CWire.StrictlyInside
    cases horz
    · simp only [CWire.span, if_neg Bool.false_ne_true] at *
      split at h3
      · simp at h3; refine ⟨h3.1, h3.2, by omega, h4, h5⟩
      · simp at h3
    · simp only [CWire.span, if_true] at *
      split at h3
      · simp at h3
      · simp at h3; refine ⟨h3.1, h3.2, by omega, h4, h5⟩
  · rintro ⟨h1, w, h2, h3, h4⟩
    refine ⟨h1, w, h2, ?_⟩
    have hw := (hproper w (List.mem_of_getElem? h2)).1
    unfold CWire.splitKey
    cases horz
    · simp only [CWire.span, if_neg Bool.false_ne_true] at *
      rw [if_pos (by omega)]
      exact ⟨by rw [h3, h4.1], h4.2.2.1, h4.2.2.2⟩
    · simp only [CWire.span, if_true] at *
      rw [if_neg (by omega)]
      exact ⟨by rw [h3, h4.1], h4.2.2.1, h4.2.2.2⟩

/-- The whole node map is exact: shape or pin `i` is listed at `n` exactly when some shape ends at
`n` and `i` has metal there. -/
theorem c31_node_map_exact {objs : List CObj} {pins : List (List Node)} (hc : CleanNet objs pins) (n : Node) (i : Nat) :
    (nodeMap objs pins).Has n i ↔ IsEnd objs n ∧ Present objs pins i n := nodeMap_exact hc n i

/-! ### the net the check works on -/

theorem initObjs_get_wire {ws : List CWire} {vs : List CVia} {i : Nat} {w : CWire}
    (h : (initObjs ws vs)[i]? = some (.wire w)) : ws[i]? = some w := by
  unfold initObjs at h
  rw [List.getElem?_append] at h
  split at h
  · simp at h; exact h
  · simp at h

theorem merged_cleanNet {ws : List CWire} (hp : ∀ w ∈ ws, w.Proper) (vs : List CVia) (pinAt : Nat → Node → Bool) (nPins : Nat) :
    CleanNet (initObjs (mergedWires ws) vs) ((foundPins (initObjs (mergedWires ws) vs) pinAt nPins).map Prod.snd) := by
  refine ⟨?_, ?_, ?_⟩
  · intro w hw
    rcases mem_initObjs.1 hw with ⟨v, h, he⟩ | ⟨v, _, he⟩
    · cases he; exact (c30_merged_wires_disjoint hp).2 _ h
    · cases he
  · intro i j v w hij h1 h2
    have g1 := initObjs_get_wire h1
    have g2 := initObjs_get_wire h2
    obtain ⟨l1, e1⟩ := List.getElem?_eq_some_iff.1 g1
    obtain ⟨l2, e2⟩ := List.getElem?_eq_some_iff.1 g2
    have hpw := List.pairwise_iff_getElem.1 (mergedWires_pairwise hp)
    rcases Nat.lt_or_gt_of_ne hij with h | h
    · have := hpw i j l1 l2 h; rw [e1, e2] at this; exact this
    · have := hpw j i l2 l1 h; rw [e1, e2] at this
      rintro ⟨l, hz, p, a, b⟩; exact this ⟨l, hz, p, b, a⟩
  · intro ns hns n hn
    obtain ⟨⟨k, ns'⟩, hk, rfl⟩ := List.mem_map.1 hns
    unfold foundPins at hk
    obtain ⟨k', _, hk'⟩ := List.mem_map.1 (List.mem_filter.1 hk).1
    simp only [Prod.mk.injEq] at hk'
    obtain ⟨rfl, rfl⟩ := hk'
    have hq := (List.mem_filter.1 hn).1
    unfold pinQueries at hq
    rcases List.mem_append.1 hq with h | h <;> obtain ⟨o, ho, h⟩ := List.mem_flatMap.1 h
    · cases o with
      | via v => simp at h
      | wire w =>
        refine ⟨_, ho, ?_⟩
        simp only [CObj.ends, List.mem_cons, List.not_mem_nil, or_false]
        rcases List.mem_append.1 h with h | h <;> split at h <;> simp at h
        · exact .inl h
        · exact .inr h
    · cases o with
      | wire w => simp at h
      | via v => exact ⟨_, ho, (List.mem_filter.1 h).1⟩

/-! ### C32: the check -/

theorem adjOf_length (nm : NodeMap) (i : Nat) : (adjOf nm i).length ≤ (nm.map (fun x => x.2.length)).sum := by
  unfold adjOf
  induction nm with
  | nil => simp
  | cons x r ih =>
    rw [List.flatMap_cons, List.length_append, List.map_cons, List.sum_cons]
    have : (if i ∈ x.2 then x.2.filter (fun j => decide (j ≠ i)) else []).length ≤ x.2.length := by
      split
      · exact List.length_filter_le _ _
      · simp
    omega

/-- enough loop steps for the search of a net with this node map -/
def checkFuel (objs : List CObj) (pins : List (List Node)) : Nat :=
  roundFuel (objs.length + pins.length) ((nodeMap objs pins).map (fun x => x.2.length)).sum

theorem check_correct {objs : List CObj} {pins : List (List Node)} (hc : CleanNet objs pins) (h2 : 2 ≤ pins.length)
    (pick : Nat → Nat → Nat) {fuel : Nat} (hf : checkFuel objs pins ≤ fuel) :
    ∃ r, checkGraph objs pins pick fuel = some r ∧
      (r.ok = true ↔ ∀ k < pins.length, Chain (Joined objs pins) (fun _ => True) objs.length (objs.length + k)) ∧
      (r.ok = true ↔ ∀ k < pins.length, r.kept (objs.length + k) = true) ∧
      ∀ x, r.kept x = true → x < objs.length + pins.length ∧ Chain (Joined objs pins) (fun y => r.kept y = true) objs.length x := by
  have hadj : ∀ i < objs.length + pins.length, ∀ m ∈ adjOf (nodeMap objs pins) i, m < objs.length + pins.length := by
    intro i _ m hm
    obtain ⟨_, n, _, _, h⟩ := (mem_adj_joined hc i m).1 hm
    exact present_lt h
  obtain ⟨r, h1, h3, h4, h5⟩ := netSearch_correct (g := objs.length) (n := objs.length + pins.length) (by omega) hadj
    (fun i _ => adjOf_length _ i) 5 pick hf
  refine ⟨r, h1, ?_, ?_, ?_⟩
  · rw [h3]
    constructor
    · intro h k hk
      exact (within_iff_chain hc _ _ _).1 (h _ (by omega) (by omega))
    · intro h x hx hx'
      have := h (x - objs.length) (by omega)
      rw [show objs.length + (x - objs.length) = x by omega] at this
      exact (within_iff_chain hc _ _ _).2 this
  · rw [h4]
    constructor
    · intro h k hk
      exact h _ (by omega) (by omega)
    · intro h x hx hx'
      have := h (x - objs.length) (by omega)
      rw [show objs.length + (x - objs.length) = x by omega] at this
      exact this
  · intro x hx
    obtain ⟨a, b⟩ := h5 x hx
    exact ⟨a, (within_iff_chain hc _ _ _).1 b⟩

/-- The check terminates for every order in which the queue yields its entries, and succeeds exactly
when every pin is reached from the first one by a chain of elements, each two consecutive ones of
which have metal at a common point where some shape ends. -/
theorem c32_check_iff_connected {objs : List CObj} {pins : List (List Node)} (hc : CleanNet objs pins)
    (h2 : 2 ≤ pins.length) (pick : Nat → Nat → Nat) {fuel : Nat} (hf : checkFuel objs pins ≤ fuel) :
    ∃ r, checkGraph objs pins pick fuel = some r ∧
      (r.ok = true ↔ ∀ k < pins.length, Chain (Joined objs pins) (fun _ => True) objs.length (objs.length + k)) := by
  obtain ⟨r, h1, h3, _⟩ := check_correct hc h2 pick hf
  exact ⟨r, h1, h3⟩

/-- The whole per-net pass on any set of proper wires, vias and pins: it reports a broken net
exactly when two of the pins that are touched at all are not connected. -/
theorem c32_net_broken_iff {ws : List CWire} (hp : ∀ w ∈ ws, w.Proper) (vs : List CVia) (patches : List Node)
    (pinAt : Nat → Node → Bool) (nPins : Nat) (pick : Nat → Nat → Nat) (fuel : Nat)
    (h2 : 2 ≤ (foundPins (initObjs (mergedWires ws) vs) pinAt nPins).length)
    (hf : checkFuel (initObjs (mergedWires ws) vs) ((foundPins (initObjs (mergedWires ws) vs) pinAt nPins).map Prod.snd) ≤ fuel) :
    let objs := initObjs (mergedWires ws) vs
    let pins := (foundPins objs pinAt nPins).map Prod.snd
    ∃ res, checkNet ws vs patches pinAt nPins pick fuel = some res ∧
      (res = .broken ↔ ∃ k < pins.length, ¬ Chain (Joined objs pins) (fun _ => True) objs.length (objs.length + k)) := by
  intro objs pins
  obtain ⟨r, h1, h3, _⟩ := check_correct (merged_cleanNet hp vs pinAt nPins) (by simpa using h2) pick hf
  unfold checkNet
  simp only
  rw [h1]
  simp only
  by_cases hok : r.ok = true
  · rw [if_pos hok]
    refine ⟨_, rfl, ?_⟩
    simp only [reduceCtorEq, false_iff]
    rintro ⟨k, hk, h⟩
    exact h (h3.1 hok k hk)
  · rw [if_neg hok]
    refine ⟨_, rfl, ?_⟩
    simp only [true_iff]
    apply Classical.byContradiction
    intro hne
    apply hok
    rw [h3]
    intro k hk
    apply Classical.byContradiction
    intro hk'
    exact hne ⟨k, hk, hk'⟩

/-- a via from layer 2 to 4 at (0,0), a wire on layer 4 and a via down at its other end; pin 0 under
the first via, pin 1 under the second -/
def demoNet : List CWire := [⟨4, ⟨0, 0⟩, ⟨10, 0⟩, true, true⟩]
def demoVias : List CVia := [⟨⟨0, 0⟩, 2, 4⟩, ⟨⟨10, 0⟩, 2, 4⟩]
def demoPinAt (k : Nat) (n : Node) : Bool := n.layer == 2 && n.pt.x == 10 * k && n.pt.y == 0

set_option maxRecDepth 100000 in
example : 2 ≤ (foundPins (initObjs (mergedWires demoNet) demoVias) demoPinAt 2).length ∧
    checkNet demoNet demoVias [] demoPinAt 2 (fun _ _ => 0) 400 = some (.clean ⟨demoNet, demoVias, []⟩) ∧
    checkNet demoNet [⟨⟨0, 0⟩, 2, 4⟩, ⟨⟨10, 0⟩, 2, 6⟩] [] demoPinAt 2 (fun _ _ => 0) 400 = some .broken := by decide

/-- Finding: the check of a net with exactly one touched pin always fails, whatever the shapes. -/
theorem c32_one_pin_fails (objs : List CObj) (ns : List Node) (pick : Nat → Nat → Nat) (fuel : Nat) :
    (checkGraph objs [ns] pick fuel).map NetFound.ok = some false := by
  unfold checkGraph netSearch
  rw [show objs.length + [ns].length - 1 - objs.length = 0 by simp]
  have h0 : ∀ L : List Nat, L.filter (fun _ => false) = [] := by
    intro L; induction L with
    | nil => rfl
    | cons a r ih => simp [ih]
  simp [netRounds, pinsVisited, h0]

/-- Finding: pins that no shape touches are ignored. A net with three pins of which one has no shape
near it passes the check. -/
theorem c32_untouched_pins_ignored :
    ∃ c, checkNet demoNet demoVias [] (fun k n => if k = 2 then decide (n = ⟨⟨500, 500⟩, 2⟩) else demoPinAt k n) 3
      (fun _ _ => 0) 400 = some (.clean c) := by
  refine ⟨⟨demoNet, demoVias, []⟩, ?_⟩
  decide

/-! ### C33: what is kept connects all pins -/

/-- If the check succeeds, the shapes it keeps connect all pins among themselves: dropping any set of
unkept shapes does not disconnect two pins. -/
theorem c33_kept_connects {objs : List CObj} {pins : List (List Node)} (hc : CleanNet objs pins)
    (h2 : 2 ≤ pins.length) (pick : Nat → Nat → Nat) {fuel : Nat} (hf : checkFuel objs pins ≤ fuel) {r : NetFound}
    (hr : checkGraph objs pins pick fuel = some r) (hok : r.ok = true) (K : Nat → Prop) (hK : ∀ i, r.kept i = true → K i)
    {j k : Nat} (hj : j < pins.length) (hk : k < pins.length) :
    Chain (Joined objs pins) K (objs.length + j) (objs.length + k) := by
  obtain ⟨r', h1, _, h4, h5⟩ := check_correct hc h2 pick hf
  rw [h1] at hr; simp at hr; subst hr
  have hsym : ∀ a b, Joined objs pins a b → Joined objs pins b a := by
    rintro a b ⟨n, x, y, z⟩; exact ⟨n, x, z, y⟩
  have hpin := h4.1 hok
  have cj := (h5 _ (hpin j hj)).2
  have ck := (h5 _ (hpin k hk)).2
  exact ((cj.symm hsym).trans ck).widen hK

/-! ### C47: the clean-up -/

/-- When the pass accepts a net, the shapes it leaves (after dropping unused shapes, splitting wires
at pins and shrinking them) still connect all touched pins. -/
theorem c47_cleanup_keeps_connection {ws : List CWire} (hp : ∀ w ∈ ws, w.Proper) (vs : List CVia) (patches : List Node)
    (pinAt : Nat → Node → Bool) (nPins : Nat) (pick : Nat → Nat → Nat) (fuel : Nat)
    (h2 : 2 ≤ (foundPins (initObjs (mergedWires ws) vs) pinAt nPins).length)
    (hf : checkFuel (initObjs (mergedWires ws) vs) ((foundPins (initObjs (mergedWires ws) vs) pinAt nPins).map Prod.snd) ≤ fuel)
    {c : Cleaned} (h : checkNet ws vs patches pinAt nPins pick fuel = some (.clean c)) :
    PinsConnected (initObjs c.wires c.vias) ((foundPins (initObjs (mergedWires ws) vs) pinAt nPins).map Prod.snd) := by
  have hc := merged_cleanNet hp vs pinAt nPins
  generalize hob : initObjs (mergedWires ws) vs = objs at *
  generalize hpi : (foundPins objs pinAt nPins).map Prod.snd = pins at *
  have h2' : 2 ≤ pins.length := by rw [← hpi]; simpa using h2
  obtain ⟨r, h1, _⟩ := check_correct hc h2' pick hf
  have hok : r.ok = true ∧ c = finalClean objs pins.length r.kept (nodeMap objs pins) patches := by
    unfold checkNet at h
    simp only [hob, hpi, h1] at h
    split at h
    · simp at h; exact ⟨by assumption, h.symm⟩
    · simp at h
  obtain ⟨hok, rfl⟩ := hok
  intro j k hj hk
  exact final_connected hc patches (c33_kept_connects hc h2' pick hf h1 hok _ (fun _ h => h) hj hk) hj hk

/-- The pass adds no metal: every remaining wire lies on a merged wire of its layer, every remaining
via was there before, and of the patches exactly those at an end of a remaining shape stay. -/
theorem c47_cleanup_adds_nothing {ws : List CWire} (hp : ∀ w ∈ ws, w.Proper) (vs : List CVia) (patches : List Node)
    (pinAt : Nat → Node → Bool) (nPins : Nat) (pick : Nat → Nat → Nat) (fuel : Nat)
    {c : Cleaned} (h : checkNet ws vs patches pinAt nPins pick fuel = some (.clean c)) :
    (∀ w ∈ c.wires, ∃ w0 ∈ mergedWires ws, w.LiesOn w0) ∧ (∀ v ∈ c.vias, v ∈ vs) ∧
    (∀ n, n ∈ c.patches ↔ n ∈ patches ∧ IsEnd (initObjs c.wires c.vias) n) := by
  have hc := merged_cleanNet hp vs pinAt nPins
  have : ∃ r : NetFound, c = finalClean (initObjs (mergedWires ws) vs)
      ((foundPins (initObjs (mergedWires ws) vs) pinAt nPins).map Prod.snd).length r.kept
      (nodeMap (initObjs (mergedWires ws) vs) ((foundPins (initObjs (mergedWires ws) vs) pinAt nPins).map Prod.snd)) patches := by
    unfold checkNet at h
    simp only at h
    split at h
    · simp at h
    · rename_i r _
      split at h
      · simp at h; exact ⟨r, by rw [← h]; simp⟩
      · simp at h
  obtain ⟨r, rfl⟩ := this
  obtain ⟨p1, p2, p3⟩ := final_parts hc r.kept patches
  refine ⟨?_, ?_, p3⟩
  · intro w hw
    obtain ⟨_, i, w0, h1, _, h3⟩ := p1 w hw
    exact ⟨w0, List.mem_of_getElem? (initObjs_get_wire h1), h3⟩
  · intro v hv
    obtain ⟨i, h1, _⟩ := p2 v hv
    rcases mem_initObjs.1 (List.mem_of_getElem? h1) with ⟨_, _, he⟩ | ⟨u, hu, he⟩
    · cases he
    · cases he; exact hu

/-- a net with a redundant via and a dangling wire end: both are cut away, the patch at the dangling
end too -/
example : checkNet [⟨4, ⟨0, 0⟩, ⟨25, 0⟩, true, true⟩] (⟨⟨20, 0⟩, 4, 6⟩ :: demoVias) [⟨⟨0, 0⟩, 4⟩, ⟨⟨25, 0⟩, 4⟩] demoPinAt 2
    (fun _ _ => 0) 400 = some (.clean ⟨[⟨4, ⟨0, 0⟩, ⟨10, 0⟩, true, true⟩], demoVias, [⟨⟨0, 0⟩, 4⟩]⟩) := by decide

/-- crossing wires on one layer, with a via at the crossing, and a pin at each end -/
def crossNet : List CWire := [⟨4, ⟨0, 5⟩, ⟨10, 5⟩, true, true⟩, ⟨4, ⟨5, 0⟩, ⟨5, 10⟩, true, true⟩]
def crossVias : List CVia := [⟨⟨5, 5⟩, 4, 6⟩]
def crossPinAt (k : Nat) (n : Node) : Bool :=
  n.layer == 4 && (match k with
    | 0 => n.pt == ⟨0, 5⟩ | 1 => n.pt == ⟨10, 5⟩ | 2 => n.pt == ⟨5, 0⟩ | _ => n.pt == ⟨5, 10⟩)

set_option maxRecDepth 100000 in
/-- Finding: the pass is not idempotent. Two wires of a layer crossing inside both are joined only
while some shape ends at the crossing. Here the via at the crossing is dropped as unused, and the
next run of the same check reports the net as broken. -/
theorem c47_not_idempotent :
    checkNet crossNet crossVias [] crossPinAt 4 (fun _ _ => 0) 1000 = some (.clean ⟨crossNet, [], []⟩) ∧
    checkNet crossNet [] [] crossPinAt 4 (fun _ _ => 0) 1000 = some .broken := by decide

end TR
