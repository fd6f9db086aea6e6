import Verif.Region.Reroute
/-! # Properties: border points, and the connections of a net after a worker has finished (C71) -/
namespace TR

variable {R ext : Box} {width : Int → Nat} {O : List DObj} {pinAt : Nat → Node → Bool} {nPins : Nat}

theorem border_at {o : DObj} (hR : R.Strict) (hp : ∀ s, o = .seg s → s.Pos) {n : Node} (h : n ∈ borderPoints R [o]) : o.At n ∧ R.Has n.pt := by
  unfold borderPoints at h
  rw [List.flatMap_cons, List.flatMap_nil, List.append_nil] at h
  cases o with
  | via v => cases h
  | patch p => cases h
  | seg s =>
    have hs := hp s rfl
    have hend := dseg_ends_on hs.1
    obtain ⟨r1, r2⟩ := hR
    simp only at h
    split at h
    · rename_i hc
      obtain ⟨c1, c2, c3⟩ := hc
      rcases List.mem_append.1 h with h | h
      · split at h
        · rename_i hy
          rw [List.mem_singleton] at h
          rw [h]
          exact ⟨⟨rfl, hend.1⟩, by unfold Box.Has; simp only; omega⟩
        · cases h
      · split at h
        · rename_i hy
          rw [List.mem_singleton] at h
          rw [h]
          exact ⟨⟨rfl, hend.2⟩, by unfold Box.Has; simp only; omega⟩
        · cases h
    · split at h
      · rename_i hc
        obtain ⟨c1, c2, c3⟩ := hc
        rcases List.mem_append.1 h with h | h
        · split at h
          · rename_i hy
            rw [List.mem_singleton] at h
            rw [h]
            exact ⟨⟨rfl, hend.1⟩, by unfold Box.Has; simp only; omega⟩
          · cases h
        · split at h
          · rename_i hy
            rw [List.mem_singleton] at h
            rw [h]
            exact ⟨⟨rfl, hend.2⟩, by unfold Box.Has; simp only; omega⟩
          · cases h
      · cases h

theorem PieceOf.horz {s t : DSeg} (h : PieceOf s t) (hs : s.Pos) : t.horz = s.horz := by
  have h1 := (dseg_on_iff s.horz s t.b).1 (h.sub _ (dseg_ends_on h.pos.1).1)
  have h2 := (dseg_on_iff s.horz s t.e).1 (h.sub _ (dseg_ends_on h.pos.1).2)
  obtain ⟨e1, e2, _⟩ := hs.1.ac
  cases hz : s.horz with
  | false =>
    rw [hz] at h1 h2 e1
    simp only [Point.c, Point.a, Bool.false_eq_true, if_false] at h1 h2 e1
    unfold DSeg.horz
    rw [decide_eq_false_iff_not]
    simp only [ne_eq]
    omega
  | true =>
    rw [hz] at h1 h2 e1
    simp only [Point.c, Point.a, if_true] at h1 h2 e1
    unfold DSeg.horz
    rw [decide_eq_true_iff]
    intro hx
    apply h.pos.2.1
    have hy : t.b.y = t.e.y := by omega
    cases hb : t.b
    cases he : t.e
    rw [hb, he] at hx hy
    simp only at hx hy
    rw [hx, hy]

theorem mem_border {s : DSeg} (hs : s.Pos) {n : Node} : n ∈ borderPoints R [.seg s] ↔
    R.loC s.horz ≤ s.b.c s.horz ∧ s.b.c s.horz ≤ R.hiC s.horz ∧
      ((n = ⟨s.b, s.layer⟩ ∧ s.b.a s.horz = R.hiA s.horz) ∨ (n = ⟨s.e, s.layer⟩ ∧ s.e.a s.horz = R.loA s.horz)) := by
  have key : ∀ (c : Prop) [Decidable c] (x : Node), n ∈ (if c then [x] else []) ↔ n = x ∧ c := by
    intro c _ x
    split
    · rename_i hc
      rw [List.mem_singleton]
      exact ⟨fun h => ⟨h, hc⟩, fun h => h.1⟩
    · rename_i hc
      exact ⟨fun h => (by cases h), fun h => absurd h.2 hc⟩
  obtain ⟨e1, e2, _⟩ := hs.1.ac
  have hlt := hs.lt
  unfold borderPoints
  rw [List.flatMap_cons, List.flatMap_nil, List.append_nil]
  simp only
  by_cases hx : s.b.x = s.e.x
  · have hh : s.horz = false := by unfold DSeg.horz; simp [hx]
    rw [hh] at e1 e2 hlt ⊢
    simp only [Point.a, Point.c, Box.loC, Box.hiC, Box.hiA, Box.loA, Bool.false_eq_true, if_false] at *
    split
    · rename_i hc
      rw [List.mem_append, key, key]
      exact ⟨fun h => ⟨hc.2.1, by omega, h⟩, fun h => h.2.2⟩
    · rename_i hc
      rw [if_neg (by omega)]
      exact ⟨fun h => (by cases h), fun h => absurd ⟨hx, h.1, by omega⟩ hc⟩
  · have hh : s.horz = true := by unfold DSeg.horz; simp [hx]
    rw [hh] at e1 e2 hlt ⊢
    simp only [Point.a, Point.c, Box.loC, Box.hiC, Box.hiA, Box.loA, if_true] at *
    rw [if_neg (by omega)]
    split
    · rename_i hc
      rw [List.mem_append, key, key]
      exact ⟨fun h => ⟨hc.2.1, by omega, h⟩, fun h => h.2.2⟩
    · rename_i hc
      exact ⟨fun h => (by cases h), fun h => absurd ⟨by omega, h.1, by omega⟩ hc⟩

/-- **C71.** The points at which a worker has to meet the kept wires of a subnet are exactly the nodes of the region they reach. -/
theorem c71_border (hR : R.Strict) (hO : TidyNet O) (hext : ∀ p, R.Has p → ext.Has p) (hv : OriginsIn O) {pick : List Nat → Nat} {subs : List Subnet}
    (h : regionSubnets R (loadNet false R ext width O).1 (loadNet false R ext width O).2 pinAt nPins pick = some subs) {s : Subnet} (hs : s ∈ subs)
    {o : DObj} (ho : o ∈ s.exts) (n : Node) : n ∈ borderPoints R [o] ↔ o.At n ∧ R.Has n.pt := by
  have htidy := load_tidy (ext := ext) (width := width) hR hO
  obtain ⟨subs', hsub', hperm, _, _, _, hexts⟩ := c70_partition (R := R) (pure := (loadNet false R ext width O).2) (pinAt := pinAt) (nPins := nPins) htidy pick
  rw [h] at hsub'
  cases hsub'
  have hm : o ∈ (loadNet false R ext width O).1 ++ (loadNet false R ext width O).2 := hperm.mem_iff.1 (List.mem_flatMap.2 ⟨s, hs, List.mem_append_right _ ho⟩)
  have hposall : ∀ t, o = .seg t → t.Pos := by
    intro t e
    rw [e] at hm
    rcases List.mem_append.1 hm with hm | hm
    · exact htidy.pos t hm
    · obtain ⟨x, hx, h1⟩ := mem_load2 hm
      cases x with
      | seg w =>
        simp only [loadParts, List.mem_map, DObj.seg.injEq, exists_eq_right] at h1
        exact (piece_of (init := false) (w := width w.layer) hR (hO.pos w hx) (by unfold pieces; exact List.mem_append_right _ h1)).pos
      | via v => simp only [loadParts] at h1; split at h1 <;> simp at h1
      | patch p => simp only [loadParts] at h1; split at h1 <;> simp at h1
  refine ⟨fun hn => border_at hR hposall hn, ?_⟩
  rintro ⟨hat, hn⟩
  have hnout : ∀ x ∈ O, o ∉ (loadParts false R width x).2 := fun x hx h1 => out_at hR hO hx h1 hat hn
  have hin : o ∈ (loadNet false R ext width O).1 := by
    rcases List.mem_append.1 hm with hm | hm
    · exact hm
    · obtain ⟨x, hx, h1⟩ := mem_load2 hm
      exact absurd h1 (hnout x hx)
  have hni : ∃ w, o = .seg w ∧ ¬ (R.Has w.b ∧ R.Has w.e) := by
    rcases hexts s hs o ho with h1 | h1
    · obtain ⟨x, hx, h2⟩ := mem_load2 h1
      exact absurd h2 (hnout x hx)
    · exact h1
  obtain ⟨t, rfl, hnotin⟩ := hni
  obtain ⟨x, hx, h1⟩ := (mem_load1 hR hext hO hv).1 hin
  cases x with
  | via v => simp only [loadParts] at h1; split at h1 <;> simp at h1
  | patch p => simp only [loadParts] at h1; split at h1 <;> simp at h1
  | seg w =>
    simp only [loadParts, List.mem_map, DObj.seg.injEq, exists_eq_right] at h1
    have hw := hO.pos w hx
    obtain ⟨e1, e2, _⟩ := hw.1.ac
    have hlt := hw.lt
    have hst := (strict_iff w.horz R).1 hR
    have hnR := (has_iff w.horz R n.pt).1 hn
    have hpc := piece_of (init := false) (w := width w.layer) hR hw (t := t) (by unfold pieces; exact List.mem_append_left _ h1)
    rcases load_cases false R w with hc | ⟨c1, c2, c3⟩
    · rw [loadSeg_out hw.1 hc hR.proper] at h1
      cases h1
    · have htr := trackIn_iff.1 c1
      rcases (mem_loadSeg_in hw.1 c1 c2 c3).1 h1 with ⟨rfl, hb⟩ | ⟨rfl, hb⟩ | ⟨rfl, hb⟩
      · have hh := hpc.horz hw
        rw [mem_border hpc.pos, hh]
        have hon := (low_on n.pt).1 hat.2
        have hon' := (dseg_on_iff w.horz w n.pt).1 hon.1
        have hea : (lowPart R (width w.layer) w).e.a w.horz = R.loA w.horz := by
          unfold lowPart
          simp only [ptAC_a]
          omega
        have hec : (lowPart R (width w.layer) w).e.c w.horz = w.e.c w.horz := by
          unfold lowPart
          simp only [ptAC_c]
        refine ⟨htr.1, htr.2.1, .inr ⟨?_, hea⟩⟩
        have hp : n.pt = (lowPart R (width w.layer) w).e := pt_ext_ac w.horz (by rw [hea]; omega) (by rw [hec]; omega)
        obtain ⟨np, nl⟩ := n
        simp only at hp
        rw [Node.mk.injEq]
        exact ⟨hp, hat.1.symm⟩
      · exfalso
        apply hnotin
        rw [has_iff w.horz, has_iff w.horz]
        unfold midPart
        simp only [ptAC_a, ptAC_c]
        omega
      · have hh := hpc.horz hw
        rw [mem_border hpc.pos, hh]
        have hon := (high_on n.pt).1 hat.2
        have hon' := (dseg_on_iff w.horz w n.pt).1 hon.1
        have hea : (highPart R (width w.layer) w).b.a w.horz = R.hiA w.horz := by
          unfold highPart
          simp only [ptAC_a]
          omega
        have hec : (highPart R (width w.layer) w).b.c w.horz = w.b.c w.horz := by
          unfold highPart
          simp only [ptAC_c]
        refine ⟨by rw [hec]; exact htr.1, by rw [hec]; exact htr.2.1, .inl ⟨?_, hea⟩⟩
        have hp : n.pt = (highPart R (width w.layer) w).b := pt_ext_ac w.horz (by rw [hea]; omega) (by rw [hec]; omega)
        obtain ⟨np, nl⟩ := n
        simp only at hp
        rw [Node.mk.injEq]
        exact ⟨hp, hat.1.symm⟩

/-! ### writing back -/

theorem connected_physical {A : List DObj} {a b : RElem} (h : Connected A pinAt nPins a b) : PConnected A pinAt nPins a b := by
  have hg : ∀ (e : RElem) n, e.GAt A pinAt n → e.PAt pinAt n := by
    intro e n h
    cases e with
    | obj o => exact h
    | pin k => exact h.1
  induction h with
  | refl hk => exact .refl hk
  | step _ hj hk ih =>
    obtain ⟨n, h1, h2, _⟩ := hj
    exact .step ih ⟨n, hg _ _ h1, hg _ _ h2⟩ hk

/-- if every wire and via is covered by another one, connections remain -/
theorem physical_cover {A B : List DObj} (hcov : ∀ o ∈ A, o.isPatch = false → ∃ o' ∈ B, o'.isPatch = false ∧ ∀ n, o.At n → o'.At n) {j k : Nat}
    (h : PConnected A pinAt nPins (.pin j) (.pin k)) : PConnected B pinAt nPins (.pin j) (.pin k) := by
  have main : ∀ e, PConnected A pinAt nPins (.pin j) e → (∀ k, e = .pin k → PConnected B pinAt nPins (.pin j) (.pin k)) ∧
      (∀ o, e = .obj o → ∀ o' ∈ B, o'.isPatch = false → (∀ n, o.At n → o'.At n) → PConnected B pinAt nPins (.pin j) (.obj o')) := by
    intro e he
    induction he with
    | refl hk =>
      refine ⟨fun k e => ?_, fun o e => by cases e⟩
      cases e
      exact .refl hk
    | @step b c hb hj hk ih =>
      obtain ⟨n, h1, h2⟩ := hj
      have hb' : ∃ b' : RElem, PConnected B pinAt nPins (.pin j) b' ∧ b'.PAt pinAt n := by
        cases b with
        | pin q => exact ⟨.pin q, ih.1 q rfl, h1⟩
        | obj o =>
          have hm : RElem.Conducts A nPins (.obj o) := Chain.mem hb
          obtain ⟨o', g1, g2, g3⟩ := hcov o hm.1 hm.2
          exact ⟨.obj o', ih.2 o rfl o' g1 g2 g3, g3 n h1⟩
      obtain ⟨b', b1, b2⟩ := hb'
      constructor
      · intro q e
        rw [e] at h2 hk
        exact .step b1 ⟨n, b2, h2⟩ hk
      · intro o e o' g1 g2 g3
        rw [e] at h2
        exact .step b1 ⟨n, b2, g3 n h2⟩ ⟨g1, g2⟩
  exact (main _ h).1 k rfl

/-- the objects of a net -/
def netObjs (m : Nat) (objs : List DObj) : List DObj := objs.filter (fun o => o.net == m)

theorem mem_netObjs {m : Nat} {objs : List DObj} {o : DObj} : o ∈ netObjs m objs ↔ o ∈ objs ∧ o.net = m := by
  unfold netObjs
  rw [List.mem_filter]
  simp

theorem mergePt_cover {grid : Int} {pins : Nat → Node → Bool} {ord : List DSeg → List DSeg} (hord : ∀ l, (ord l).Perm l) {objs : List DObj} (hok : WiresOk objs)
    (net : Nat) (n : Node) (m : Nat) : WiresOk (mergePt grid pins ord objs net n) ∧
      ∀ o ∈ netObjs m objs, o.isPatch = false → ∃ o' ∈ netObjs m (mergePt grid pins ord objs net n), o'.isPatch = false ∧ ∀ n, o.At n → o'.At n := by
  rcases mergePt_cases (grid := grid) (pinAt := pins) hord hok net n with h | ⟨_, s1, s2, t, rest, h⟩
  · rw [h]
    exact ⟨hok, fun o ho hp => ⟨o, ho, hp, fun _ h => h⟩⟩
  · refine ⟨mergeOf_ok hok h, ?_⟩
    intro o ho hp
    obtain ⟨h1, h2⟩ := mem_netObjs.1 ho
    have a := mergeOf_mem h s1 (.inl rfl)
    have b := mergeOf_mem h s2 (.inr rfl)
    have c := mergeOf_net h
    have hmem : DObj.seg t ∈ mergePt grid pins ord objs net n := h.after.mem_iff.2 List.mem_cons_self
    rcases List.mem_cons.1 (h.before.mem_iff.1 h1) with e | e
    · refine ⟨.seg t, mem_netObjs.2 ⟨hmem, ?_⟩, rfl, ?_⟩
      · rw [e] at h2
        simp only [DObj.net] at h2 ⊢
        omega
      · intro q hq
        rw [e] at hq
        exact ⟨by rw [c.2, ← a.2.2.1]; exact hq.1, (mergeOf_on hok h q.pt).2 (.inl hq.2)⟩
    · rcases List.mem_cons.1 e with e | e
      · refine ⟨.seg t, mem_netObjs.2 ⟨hmem, ?_⟩, rfl, ?_⟩
        · rw [e] at h2
          simp only [DObj.net] at h2 ⊢
          omega
        · intro q hq
          rw [e] at hq
          exact ⟨by rw [c.2, ← b.2.2.1]; exact hq.1, (mergeOf_on hok h q.pt).2 (.inr hq.2)⟩
      · exact ⟨o, mem_netObjs.2 ⟨h.after.mem_iff.2 (List.mem_cons_of_mem _ e), h2⟩, hp, fun _ h => h⟩

theorem merges_cover {grid : Int} {pins : Nat → Node → Bool} {ord : List DSeg → List DSeg} (hord : ∀ l, (ord l).Perm l) (m : Nat) {j k : Nat} :
    ∀ (bounds : List (Nat × Node)) (objs : List DObj), WiresOk objs → PConnected (netObjs m objs) pinAt nPins (.pin j) (.pin k) →
      PConnected (netObjs m (bounds.foldl (fun os x => mergePt grid pins ord os x.1 x.2) objs)) pinAt nPins (.pin j) (.pin k) := by
  intro bounds
  induction bounds with
  | nil => intro objs _ h; exact h
  | cons x xs ih =>
    intro objs hok h
    rw [List.foldl_cons]
    obtain ⟨h1, h2⟩ := mergePt_cover (grid := grid) (pins := pins) hord hok x.1 x.2 m
    exact ih _ h1 (physical_cover h2 h)

/-- **C71.** A worker does not disconnect pins: if two pins of a net are connected before, and the worker's new routes of the net, when it rerouted it, connect the
border-crossing wires and pins of every subnet, then after the worker has written back its result, or decided not to, the two pins are connected by touching shapes. -/
theorem c71_worker {E : DesignEnv} (hord : ∀ l, (E.ord l).Perm l) {C : WorkerCfg} (hinit : C.init = false) (hR : C.routeBox.Strict) {ext : Box}
    (hext : ∀ p, C.routeBox.Has p → ext.Has p) (ms0 : List DMarker) {W : WorkerResult} {D : DesignSt} (hD : WiresOk D.objs) (hW : WiresOk W.routes) {m : Nat}
    (hO : TidyNet (netObjs m D.objs)) (hv : OriginsIn (netObjs m D.objs)) (pick : List Nat → Nat) (new : Nat → List DObj)
    (hroute : W.mod m = true → ∀ subs, regionSubnets C.routeBox (loadNet false C.routeBox ext E.width (netObjs m D.objs)).1
        (loadNet false C.routeBox ext E.width (netObjs m D.objs)).2 pinAt nPins pick = some subs →
      ∀ i s, subs[i]? = some s → (∀ a b, s.Terminal C.routeBox a → s.Terminal C.routeBox b → Connected (s.exts ++ new i) pinAt nPins a b) ∧
        ∀ o ∈ new i, o ∈ W.routes ∧ o.net = m)
    {j k : Nat} (h : Connected (netObjs m D.objs) pinAt nPins (.pin j) (.pin k)) :
    PConnected (netObjs m (workerEnd E C ms0 W D).objs) pinAt nPins (.pin j) (.pin k) := by
  unfold workerEnd
  simp only
  split
  · simp only
    unfold addNets
    have hok : WiresOk ((removeNets C.init C.routeBox E.width W.mod D.objs).1 ++ W.routes) := by
      intro s hs
      rcases List.mem_append.1 hs with hs | hs
      · exact removed_ok hR.proper hD s hs
      · exact hW s hs
    refine merges_cover hord m _ _ hok (connected_physical ?_)
    rw [hinit]
    cases hm : W.mod m with
    | false =>
      refine connected_mono ?_ h
      intro o ho
      obtain ⟨h1, h2⟩ := mem_netObjs.1 ho
      refine mem_netObjs.2 ⟨List.mem_append_left _ (List.mem_flatMap.2 ⟨o, h1, ?_⟩), h2⟩
      rw [removeObj_unmod (by rw [h2]; exact hm)]
      exact List.mem_cons_self
    | true =>
      obtain ⟨subs, hs, hmain⟩ := c71_reroute (ext := ext) hR hext hO hv E.width pinAt nPins pick
      have hr := hroute hm subs hs
      refine hmain new _ (fun i s hi => (hr i s hi).1) ?_ ?_ j k h
      · intro o ho
        obtain ⟨x, hx, h1⟩ := List.mem_flatMap.1 ho
        obtain ⟨hx1, hx2⟩ := mem_netObjs.1 hx
        have hsame : removeObj false C.routeBox E.width (fun _ => true) x = removeObj false C.routeBox E.width W.mod x := by
          unfold removeObj
          rw [hx2, hm]
        rw [hsame] at h1
        refine mem_netObjs.2 ⟨List.mem_append_left _ (List.mem_flatMap.2 ⟨x, hx1, h1⟩), ?_⟩
        rw [← hx2]
        unfold removeObj at h1
        split at h1
        · cases x with
          | seg s =>
            simp only at h1
            split at h1
            · simp only [List.mem_singleton] at h1; rw [h1]
            · rename_i r hr'
              obtain ⟨t, ht, rfl⟩ := List.mem_map.1 h1
              exact (part_net hr' ht).1
          | via v =>
            simp only at h1
            split at h1
            · cases h1
            · simp only [List.mem_singleton] at h1; rw [h1]
          | patch v =>
            simp only at h1
            split at h1
            · cases h1
            · simp only [List.mem_singleton] at h1; rw [h1]
        · simp only [List.mem_singleton] at h1; rw [h1]
      · intro i s hi o ho
        obtain ⟨h1, h2⟩ := (hr i s hi).2 o ho
        exact mem_netObjs.2 ⟨List.mem_append_right _ h1, h2⟩
  · exact connected_physical h

/-! ### a concrete case: a wire across the region, rerouted with a detour -/

def exWire : DSeg := ⟨0, 2, ⟨-10, 50⟩, ⟨150, 50⟩, plainStyle⟩
def exR : Box := ⟨⟨0, 0⟩, ⟨100, 100⟩⟩
def exPins : Nat → Node → Bool := fun k n => n.layer == 2 && (k == 0 && decide (n.pt = ⟨-10, 50⟩) || k == 1 && decide (n.pt = ⟨150, 50⟩))
def exLow : DObj := .seg (lowPart exR 10 exWire)
def exHigh : DObj := .seg (highPart exR 10 exWire)
def exNew : List DObj := [.seg ⟨0, 2, ⟨0, 50⟩, ⟨0, 70⟩, plainStyle⟩, .seg ⟨0, 2, ⟨0, 70⟩, ⟨100, 70⟩, plainStyle⟩, .seg ⟨0, 2, ⟨100, 50⟩, ⟨100, 70⟩, plainStyle⟩]

theorem ex_tidy : TidyNet [.seg exWire] := by
  refine ⟨?_, List.pairwise_singleton _ _⟩
  intro s hs
  simp only [List.mem_singleton, DObj.seg.injEq] at hs
  rw [hs]
  exact ⟨.inr ⟨rfl, by decide⟩, by decide, by decide, by decide⟩

theorem ex_subs : (regionSubnets exR (loadNet false exR exR (fun _ => 10) [.seg exWire]).1 (loadNet false exR exR (fun _ => 10) [.seg exWire]).2 exPins 2 (fun _ => 0)).map
    (fun l => l.map (fun s => (s.exts, s.pins))) = some [([exLow, exHigh], [])] := by
  decide

theorem ex_joined : Connected ([exLow, exHigh] ++ exNew) exPins 2 (.obj exLow) (.obj exHigh) := by
  have h0 : RElem.Conducts ([exLow, exHigh] ++ exNew) 2 (.obj exLow) := ⟨by decide, rfl⟩
  have h1 : RElem.Conducts ([exLow, exHigh] ++ exNew) 2 (.obj (.seg ⟨0, 2, ⟨0, 50⟩, ⟨0, 70⟩, plainStyle⟩)) := ⟨by decide, rfl⟩
  have h2 : RElem.Conducts ([exLow, exHigh] ++ exNew) 2 (.obj (.seg ⟨0, 2, ⟨0, 70⟩, ⟨100, 70⟩, plainStyle⟩)) := ⟨by decide, rfl⟩
  have h3 : RElem.Conducts ([exLow, exHigh] ++ exNew) 2 (.obj (.seg ⟨0, 2, ⟨100, 50⟩, ⟨100, 70⟩, plainStyle⟩)) := ⟨by decide, rfl⟩
  have h4 : RElem.Conducts ([exLow, exHigh] ++ exNew) 2 (.obj exHigh) := ⟨by decide, rfl⟩
  refine .step (.step (.step (.step (.refl h0) ?_ h1) ?_ h2) ?_ h3) ?_ h4
  · exact ⟨⟨⟨0, 50⟩, 2⟩, ⟨rfl, by unfold DSeg.On; decide⟩, ⟨rfl, by unfold DSeg.On; decide⟩, _, h1.1, rfl, .inl rfl⟩
  · exact ⟨⟨⟨0, 70⟩, 2⟩, ⟨rfl, by unfold DSeg.On; decide⟩, ⟨rfl, by unfold DSeg.On; decide⟩, _, h2.1, rfl, .inl rfl⟩
  · exact ⟨⟨⟨100, 70⟩, 2⟩, ⟨rfl, by unfold DSeg.On; decide⟩, ⟨rfl, by unfold DSeg.On; decide⟩, _, h2.1, rfl, .inr rfl⟩
  · exact ⟨⟨⟨100, 50⟩, 2⟩, ⟨rfl, by unfold DSeg.On; decide⟩, ⟨rfl, by unfold DSeg.On; decide⟩, _, h3.1, rfl, .inl rfl⟩

/-- non-vacuity: the conditions of `c71_worker` hold for the detour, and the two pins at the ends of the wire are connected before -/
example (W : WorkerResult) (hW : W.routes = exNew) :
    (∀ subs, regionSubnets exR (loadNet false exR exR (fun _ => 10) (netObjs 0 [.seg exWire])).1 (loadNet false exR exR (fun _ => 10) (netObjs 0 [.seg exWire])).2
        exPins 2 (fun _ => 0) = some subs →
      ∀ (i : Nat) (s : Subnet), subs[i]? = some s → (∀ a b, s.Terminal exR a → s.Terminal exR b → Connected (s.exts ++ exNew) exPins 2 a b) ∧ ∀ o ∈ exNew, o ∈ W.routes ∧ o.net = 0) ∧
    TidyNet (netObjs 0 [.seg exWire]) ∧ OriginsIn (netObjs 0 [.seg exWire]) ∧ exR.Strict ∧ WiresOk exNew ∧
    Connected (netObjs 0 [.seg exWire]) exPins 2 (.pin 0) (.pin 1) := by
  have hnet : netObjs 0 [.seg exWire] = [.seg exWire] := by decide
  rw [hnet]
  refine ⟨?_, ex_tidy, ⟨by simp, by simp⟩, by unfold Box.Strict; decide, ?_, ?_⟩
  · intro subs hsubs i s hi
    have h := ex_subs
    rw [hsubs] at h
    simp only [Option.map_some, Option.some.injEq] at h
    have hmem : (s.exts, s.pins) ∈ subs.map (fun s => (s.exts, s.pins)) := List.mem_map.2 ⟨s, List.mem_of_getElem? hi, rfl⟩
    rw [h, List.mem_singleton, Prod.mk.injEq] at hmem
    refine ⟨?_, fun o ho => ⟨hW ▸ ho, ?_⟩⟩
    · intro a b ha hb
      have hel : ∀ e : RElem, s.Terminal exR e → e = .obj exLow ∨ e = .obj exHigh := by
        intro e he
        cases e with
        | pin k =>
          have hk : k ∈ s.pins := he
          rw [hmem.2] at hk
          cases hk
        | obj o =>
          have ho : o ∈ s.exts := he.1
          rw [hmem.1] at ho
          simpa using ho
      rw [hmem.1]
      have hsym : ∀ a b : RElem, RElem.Joins ([exLow, exHigh] ++ exNew) exPins a b → RElem.Joins ([exLow, exHigh] ++ exNew) exPins b a := fun a b ⟨n, h1, h2, h3⟩ => ⟨n, h2, h1, h3⟩
      rcases hel a ha with rfl | rfl <;> rcases hel b hb with rfl | rfl
      · exact .refl ⟨by decide, rfl⟩
      · exact ex_joined
      · exact Chain.symm hsym ex_joined
      · exact .refl ⟨by decide, rfl⟩
    · simp only [exNew, List.mem_cons, List.not_mem_nil, or_false] at ho
      rcases ho with rfl | rfl | rfl <;> rfl
  · intro s hs
    simp only [exNew, List.mem_cons, List.not_mem_nil, or_false, DObj.seg.injEq] at hs
    rcases hs with rfl | rfl | rfl
    · exact .inl ⟨rfl, by decide⟩
    · exact .inr ⟨rfl, by decide⟩
    · exact .inl ⟨rfl, by decide⟩
  · have h1 : RElem.Conducts [.seg exWire] 2 (.obj (.seg exWire)) := ⟨by decide, rfl⟩
    refine .step (.step (.refl (show 0 < 2 by decide)) ?_ h1) ?_ (show 1 < 2 by decide)
    · exact ⟨⟨⟨-10, 50⟩, 2⟩, ⟨by decide, _, h1.1, rfl, .inl ⟨rfl, rfl⟩⟩, ⟨rfl, by unfold DSeg.On; decide⟩, _, h1.1, rfl, .inl rfl⟩
    · exact ⟨⟨⟨150, 50⟩, 2⟩, ⟨rfl, by unfold DSeg.On; decide⟩, ⟨by decide, _, h1.1, rfl, .inr ⟨rfl, rfl⟩⟩, _, h1.1, rfl, .inr rfl⟩

end TR
