import Verif.Whole.Spec
import Verif.Thr.Props
/-! # From the pins to the written file: property C179 -/
namespace TR

/-! ### all objects can be written, at any time -/

variable {T : DefTech} {vname : DVia → String}

theorem low_writable {R : Box} {s : DSeg} (h : (DObj.seg s).Writable T vname) (hb : s.b.a s.horz < R.loA s.horz) :
    (DObj.seg (lowPart R (T.width s.layer) s)).Writable T vname := by
  obtain ⟨h1, h2, h3⟩ := h
  refine ⟨low_ok h1 hb, ?_, h3⟩
  obtain ⟨a1, a2, a3, a4, a5, a6, a7⟩ := h2
  unfold lowPart
  dsimp only
  split
  · exact ⟨a1, a2, a3, a4, fun _ => rfl, fun h => by simp at h, fun h => by simp at h⟩
  · exact ⟨a1, a2, a3, a4, a5, a6, a7⟩

theorem high_writable {R : Box} {s : DSeg} (h : (DObj.seg s).Writable T vname) (hb : s.e.a s.horz > R.hiA s.horz) :
    (DObj.seg (highPart R (T.width s.layer) s)).Writable T vname := by
  obtain ⟨h1, h2, h3⟩ := h
  refine ⟨high_ok h1 hb, ?_, h3⟩
  obtain ⟨a1, a2, a3, a4, a5, a6, a7⟩ := h2
  unfold highPart
  dsimp only
  split
  · exact ⟨a1, fun _ => rfl, fun h => by simp at h, fun h => by simp at h, a5, a6, a7⟩
  · exact ⟨a1, a2, a3, a4, a5, a6, a7⟩

theorem merge_writable {s1 s2 : DSeg} {h : Bool} (hh : s1.horz = h) (hl : s1.layer = s2.layer) (h1 : (DObj.seg s1).Writable T vname) (h2 : (DObj.seg s2).Writable T vname) :
    (DObj.seg (mergeSegs h s1 s2)).Writable T vname := by
  obtain ⟨a, b, c⟩ := h1
  obtain ⟨_, b', _⟩ := h2
  refine ⟨merge_ok a hh, ?_, c⟩
  obtain ⟨a1, a2, a3, a4, a5, a6, a7⟩ := b
  rw [← hl] at b'
  obtain ⟨c1, c2, c3, c4, c5, c6, c7⟩ := b'
  unfold mergeSegs
  dsimp only
  split
  · exact ⟨a1, a2, a3, a4, c5, c6, c7⟩
  · exact ⟨a1, c2, c3, c4, a5, a6, a7⟩

theorem remove_writable {init : Bool} {R : Box} {width : Int → Nat} {mod : Nat → Bool} (hw : ∀ l, width l = T.width l) {objs : List DObj}
    (h : ∀ o ∈ objs, o.Writable T vname) : ∀ o ∈ (removeNets init R width mod objs).1, o.Writable T vname := by
  intro o ho
  unfold removeNets at ho
  simp only [List.mem_flatMap] at ho
  obtain ⟨x, hx, ho⟩ := ho
  have hxw := h x hx
  unfold removeObj at ho
  split at ho
  · cases x with
    | seg s =>
      dsimp only at ho
      split at ho
      · simp only [List.mem_singleton] at ho; subst ho; exact hxw
      · rename_i r hr
        simp only [List.mem_map] at ho
        obtain ⟨t, ht, rfl⟩ := ho
        obtain ⟨_, _, _, e, _⟩ := removeSeg_some hr
        rw [e, hw] at ht
        rcases List.mem_append.1 ht with ht | ht <;> split at ht <;> simp only [List.mem_singleton, List.not_mem_nil] at ht <;> subst ht
        · exact low_writable hxw (by assumption)
        · exact high_writable hxw (by assumption)
    | via v => dsimp only at ho; split at ho <;> simp only [List.mem_singleton, List.not_mem_nil] at ho; subst ho; exact hxw
    | patch v => dsimp only at ho; split at ho <;> simp only [List.mem_singleton, List.not_mem_nil] at ho; subst ho; exact hxw
  · simp only [List.mem_singleton] at ho; subst ho; exact hxw

theorem segsAt_mem {objs : List DObj} {net : Nat} {n : Node} {horz : Bool} {s : DSeg} (h : s ∈ segsAt objs net n horz) : .seg s ∈ objs ∧ s.layer = n.layer ∧ s.horz = horz := by
  unfold segsAt at h
  rw [List.mem_filterMap] at h
  obtain ⟨o, ho, hf⟩ := h
  cases o with
  | seg t =>
    dsimp only at hf
    split at hf
    · rename_i hc; cases hf; exact ⟨ho, hc.1, hc.2.2.2.2⟩
    · simp at hf
  | via v => simp at hf
  | patch v => simp at hf

theorem mergePt_writable {grid : Int} {pinAt : Nat → Node → Bool} {ord : List DSeg → List DSeg} (hord : ∀ l, (ord l).Perm l) {objs : List DObj}
    (h : ∀ o ∈ objs, o.Writable T vname) (net : Nat) (n : Node) : ∀ o ∈ mergePt grid pinAt ord objs net n, o.Writable T vname := by
  have key : ∀ (hz : Bool) (s1 s2 : DSeg), ord (segsAt objs net n hz) = [s1, s2] →
      ∀ o ∈ ((objs.erase (.seg s1)).erase (.seg s2)) ++ [.seg (mergeSegs hz s1 s2)], o.Writable T vname := by
    intro hz s1 s2 he o ho
    have m1 := segsAt_mem ((hord _).mem_iff.1 (by rw [he]; simp : s1 ∈ ord (segsAt objs net n hz)))
    have m2 := segsAt_mem ((hord _).mem_iff.1 (by rw [he]; simp : s2 ∈ ord (segsAt objs net n hz)))
    rcases List.mem_append.1 ho with ho | ho
    · exact h o (List.mem_of_mem_erase (List.mem_of_mem_erase ho))
    · simp only [List.mem_singleton] at ho; subst ho
      exact merge_writable m1.2.2 (m1.2.1.trans m2.2.1.symm) (h _ m1.1) (h _ m2.1)
  unfold mergePt
  split
  · exact h
  · split
    · exact h
    · split
      · rename_i s1 s2 h1 h2; exact key true s1 s2 h1
      · rename_i s1 s2 h1 h2; exact key false s1 s2 h2
      · exact h

theorem addNets_writable {grid : Int} {pinAt : Nat → Node → Bool} {ord : List DSeg → List DSeg} (hord : ∀ l, (ord l).Perm l) (bounds : List (Nat × Node)) {objs routes : List DObj}
    (h : ∀ o ∈ objs, o.Writable T vname) (hr : ∀ o ∈ routes, o.Writable T vname) : ∀ o ∈ addNets grid pinAt ord objs routes bounds, o.Writable T vname := by
  unfold addNets
  have h0 : ∀ o ∈ objs ++ routes, o.Writable T vname := fun o ho => (List.mem_append.1 ho).elim (h o) (hr o)
  generalize objs ++ routes = os at h0
  induction bounds generalizing os with
  | nil => exact h0
  | cons x xs ih => exact ih _ (mergePt_writable hord h0 _ _)

theorem workerEnd_writable {R : RunEnv} (hR : R.Ok) (hw : RunWritable R T vname) {C : WorkerCfg} {ms0 : List DMarker} {W : WorkerResult} (hW : ∀ o ∈ W.routes, o.Writable T vname)
    {D : DesignSt} (h : ∀ o ∈ D.objs, o.Writable T vname) : ∀ o ∈ (workerEnd R.E C ms0 W D).objs, o.Writable T vname := by
  unfold workerEnd
  simp only
  split
  · exact addNets_writable hR.ord _ (remove_writable hw.width h) hW
  · exact h

theorem batches_writable {R : RunEnv} (hR : R.Ok) (hw : RunWritable R T vname) {c : Call} (bs : List (List Worker)) : ∀ {S : RunSt}, (∀ o ∈ S.d.objs, o.Writable T vname) →
    ∀ o ∈ (bs.foldl (runBatch R c) S).d.objs, o.Writable T vname := by
  induction bs with
  | nil => exact fun h => h
  | cons b bs ih =>
    intro S h
    apply ih
    unfold runBatch
    dsimp only
    have : ∀ (ws : List Worker) (D : DesignSt), (∀ o ∈ D.objs, o.Writable T vname) →
        ∀ o ∈ (ws.foldl (fun D W => workerEnd R.E (c.cfg W) S.d.markers (R.router c.iter W S.d) D) D).objs, o.Writable T vname := by
      intro ws
      induction ws with
      | nil => exact fun D h => h
      | cons w ws ih => exact fun D h => ih _ (workerEnd_writable hR hw (hw.routes _ _ _) h)
    exact this b S.d h

theorem checkAll_writable {R : RunEnv} (hw : RunWritable R T vname) : ∀ (ns : List Nat) {objs objs' : List DObj}, (∀ o ∈ objs, o.Writable T vname) → checkAll R ns objs = some objs' →
    ∀ o ∈ objs', o.Writable T vname
  | [], objs, objs', h, e => by cases e; exact h
  | n :: ns, objs, objs', h, e => by
    unfold checkAll at e
    split at e
    · simp at e
    · rename_i os1 h1
      refine checkAll_writable hw ns ?_ e
      unfold checkOne at h1
      split at h1
      · simp at h1
      · rename_i os hc
        cases h1
        intro o ho
        rcases List.mem_append.1 ho with ho | ho
        · exact h o (List.mem_filter.1 ho).1
        · exact hw.clean _ _ _ hc (fun o ho => h o (List.mem_filter.1 ho).1) o ho

/-- **C179 (writable).** If the design before detailed routing and the routes found in each region can be written and read back, so can the design after any sequence of iterations. -/
theorem c179_writable {R : RunEnv} (hR : R.Ok) (hw : RunWritable R T vname) : ∀ (cs : List Call) {S S' : RunSt}, (∀ o ∈ S.d.objs, o.Writable T vname) → runCalls R cs S = some S' →
    ∀ o ∈ S'.d.objs, o.Writable T vname
  | [], S, S', h, e => by cases e; exact h
  | c :: cs, S, S', h, e => by
    unfold runCalls at e
    split at e
    · simp at e
    · rename_i S1 h1
      refine c179_writable hR hw cs ?_ e
      unfold searchRepair at h1
      simp only at h1
      split at h1
      · cases h1; exact h
      · split at h1
        · cases h1; exact h
        · split at h1
          · simp at h1
          · rename_i objs ho
            cases h1
            exact checkAll_writable hw _ (batches_writable hR hw _ h) ho

/-! ### the check -/

/-- from the positions of the found pins to the pins -/
theorem join_of_connected {ws : List DSeg} {vs : List DVia} (hok : ∀ s ∈ ws, s.Ok) {pinAt : Nat → Node → Bool} {fp : List (Nat × List Node)}
    (hfp : ∀ p ∈ fp, ∀ n ∈ p.2, pinAt p.1 n = true) (h : PinsConnected (initObjs (ws.map DSeg.checked) (vs.map DVia.checked)) (fp.map Prod.snd))
    {k l : Nat} (hk : ∃ p ∈ fp, p.1 = k) (hl : ∃ p ∈ fp, p.1 = l) : RoutesJoin ws (vs.map (DVia.out vname)) pinAt k l := by
  obtain ⟨p, hp, rfl⟩ := hk
  obtain ⟨q, hq, rfl⟩ := hl
  obtain ⟨i, hi⟩ := List.getElem?_of_mem hp
  obtain ⟨j, hj⟩ := List.getElem?_of_mem hq
  have li : i < fp.length := (List.getElem?_eq_some_iff.1 hi).1
  have lj : j < fp.length := (List.getElem?_eq_some_iff.1 hj).1
  have hc := h i j (by simpa using li) (by simpa using lj)
  -- the elements of the file that stand for an element of the check
  let Rep : El → FileEl → Prop := fun e f => match e with
    | .obj (.wire w) => ∃ s ∈ ws, s.checked = w ∧ f = .wire s
    | .obj (.via v) => ∃ u ∈ vs, u.checked = v ∧ f = .via (u.out vname)
    | .pin m => ∃ r, fp[m]? = some r ∧ f = .pin r.1
  have hat : ∀ e f n, Rep e f → El.On (fp.map Prod.snd) e n → f.At pinAt n := by
    intro e f n hr ho
    match e, hr, ho with
    | .obj (.wire w), ⟨s, hs, hw, hf⟩, ho =>
      subst hf hw
      have := hok s hs
      unfold El.On CObj.On CWire.On at ho
      dsimp only [DSeg.checked] at ho
      refine ⟨ho.1, ?_⟩
      unfold DSeg.Ok at this
      unfold DSeg.On
      omega
    | .obj (.via v), ⟨u, hu, hv, hf⟩, ho =>
      subst hf hv
      exact ho
    | .pin m, ⟨r, hr', hf⟩, ho =>
      subst hf
      obtain ⟨ns, h1, h2⟩ := ho
      rw [List.getElem?_map, hr'] at h1
      simp only [Option.map_some, Option.some.injEq] at h1
      subst h1
      exact hfp r (List.mem_of_getElem? hr') n h2
  have hex : ∀ e, InNet (initObjs (ws.map DSeg.checked) (vs.map DVia.checked)) (fp.map Prod.snd) e → ∃ f, Rep e f := by
    intro e he
    match e, he with
    | .obj (.wire w), he =>
      unfold InNet initObjs at he
      simp only [List.map_map, List.mem_append, List.mem_map, Function.comp, CObj.wire.injEq, reduceCtorEq, and_false, exists_false, or_false] at he
      obtain ⟨s, hs, h⟩ := he
      exact ⟨_, s, hs, h, rfl⟩
    | .obj (.via v), he =>
      unfold InNet initObjs at he
      simp only [List.map_map, List.mem_append, List.mem_map, Function.comp, CObj.via.injEq, reduceCtorEq, and_false, exists_false, false_or] at he
      obtain ⟨s, hs, h⟩ := he
      exact ⟨_, s, hs, h, rfl⟩
    | .pin m, he =>
      unfold InNet at he
      have lm : m < fp.length := by simpa using he
      exact ⟨_, fp[m], List.getElem?_eq_getElem lm, rfl⟩
  have hof : ∀ e f, Rep e f → f.Of ws (vs.map (DVia.out vname)) := by
    intro e f hr
    match e, hr with
    | .obj (.wire w), ⟨s, hs, hw, hf⟩ => subst hf; exact hs
    | .obj (.via v), ⟨u, hu, hv, hf⟩ => subst hf; exact List.mem_map_of_mem hu
    | .pin m, ⟨r, hr, hf⟩ => subst hf; exact trivial
  have main : ∀ e, Chain (Touch (fp.map Prod.snd)) (InNet (initObjs (ws.map DSeg.checked) (vs.map DVia.checked)) (fp.map Prod.snd)) (.pin i) e →
      ∀ f, Rep e f → Chain (fun a b => ∃ n : Node, FileEl.At pinAt a n ∧ FileEl.At pinAt b n) (FileEl.Of ws (vs.map (DVia.out vname))) (.pin p.1) f := by
    intro e hc
    induction hc with
    | refl h0 =>
      intro f hf
      obtain ⟨r, hr, hf⟩ := hf
      rw [hi] at hr
      cases hr
      subst hf
      exact .refl trivial
    | step h1 h2 h3 ih =>
      rename_i b c
      intro f hf
      have hb : InNet (initObjs (ws.map DSeg.checked) (vs.map DVia.checked)) (fp.map Prod.snd) b := by cases h1 <;> assumption
      obtain ⟨g, hg⟩ := hex b hb
      obtain ⟨n, n1, n2⟩ := h2
      exact .step (ih g hg) ⟨n, hat _ _ _ hg n1, hat _ _ _ hf n2⟩ (hof _ _ hf)
  exact main _ hc _ ⟨q, hj, rfl⟩

theorem found_at {objs : List CObj} {pinAt : Nat → Node → Bool} {nPins : Nat} : ∀ p ∈ foundPins objs pinAt nPins, ∀ n ∈ p.2, pinAt p.1 n = true := by
  intro p hp n hn
  unfold foundPins at hp
  obtain ⟨h1, _⟩ := List.mem_filter.1 hp
  obtain ⟨k, _, rfl⟩ := List.mem_map.1 h1
  exact (List.mem_filter.1 hn).2

theorem drawnAs_eq : DSeg.drawnAs = DSeg.checked := by
  funext s
  unfold DSeg.drawnAs DSeg.checked
  congr 1 <;> exact Bool.eq_iff_iff.2 (by simp)

theorem found_of_reaches {os : List DObj} {pinAt : Nat → Node → Bool} {nPins k : Nat} (hk : k < nPins) (h : ReachesPin os pinAt k) :
    ∃ p ∈ foundPins (initObjs (mergedWires ((segsOf os).map DSeg.checked)) ((netVias os).map DVia.checked)) pinAt nPins, p.1 = k := by
  obtain ⟨n, hn, hh⟩ := h
  rw [drawnAs_eq] at hh
  have hq : n ∈ pinQueries (initObjs (mergedWires ((segsOf os).map DSeg.checked)) ((netVias os).map DVia.checked)) := by
    unfold pinQueries
    rw [List.mem_append]
    rcases hh with ⟨w, hw, hl, he⟩ | ⟨⟨v, hv, ho, hl⟩, hno⟩
    · left
      rw [List.mem_flatMap]
      refine ⟨.wire w, by unfold initObjs; simp [hw], ?_⟩
      obtain ⟨pt, ly⟩ := n
      dsimp only at hl he ⊢
      rcases he with ⟨h1, h2⟩ | ⟨h1, h2⟩
      · simp [h1, h2, hl]
      · simp [h1, h2, hl]
    · right
      rw [List.mem_flatMap]
      refine ⟨.via v.checked, by unfold initObjs; simp only [List.mem_append]; exact .inr (List.mem_map_of_mem (List.mem_map_of_mem hv)), ?_⟩
      dsimp only
      rw [List.mem_filter]
      constructor
      · obtain ⟨pt, ly⟩ := n
        dsimp only at ho hl
        unfold DVia.checked
        simp only [List.mem_cons, Node.mk.injEq, List.not_mem_nil, or_false]
        rcases hl with hl | hl
        · exact .inl ⟨ho.symm, hl⟩
        · exact .inr ⟨ho.symm, hl⟩
      · rw [Bool.not_eq_true', Bool.eq_false_iff]
        intro hc
        rw [List.contains_iff_mem] at hc
        unfold extEnds at hc
        rw [List.mem_flatMap] at hc
        obtain ⟨o, ho, hc⟩ := hc
        cases o with
        | via v => simp at hc
        | wire w =>
          have hw : w ∈ mergedWires ((segsOf os).map DSeg.checked) := by
            unfold initObjs at ho
            simpa using ho
          dsimp only at hc
          rw [List.mem_append] at hc
          rcases hc with hc | hc <;> split at hc <;> simp only [List.mem_singleton, List.not_mem_nil] at hc <;> subst hc
          · exact absurd ((hno w hw rfl).1 rfl) (by assumption)
          · exact absurd ((hno w hw rfl).2 rfl) (by assumption)
  refine ⟨(k, (pinQueries (initObjs (mergedWires ((segsOf os).map DSeg.checked)) ((netVias os).map DVia.checked))).filter (pinAt k)), ?_, rfl⟩
  unfold foundPins
  rw [List.mem_filter]
  refine ⟨List.mem_map_of_mem (List.mem_range.2 hk), ?_⟩
  dsimp only
  rw [Bool.not_eq_true', Bool.eq_false_iff]
  intro he
  rw [List.isEmpty_iff] at he
  have : n ∈ (pinQueries (initObjs (mergedWires ((segsOf os).map DSeg.checked)) ((netVias os).map DVia.checked))).filter (pinAt k) := List.mem_filter.2 ⟨hq, hn⟩
  rw [he] at this
  simp at this

/-- **C179 (check).** A net that passes the check is left with wires and vias that join all its pins that routes reached before. -/
theorem c179_check {R : RunEnv} {pinAt : Nat → Nat → Node → Bool} {nPins : Nat → Nat} (hc : CleansBy R pinAt nPins) {n : Nat} {os os' : List DObj} (h : R.clean n os = some os')
    (hd : Drawn os) (hok : ∀ s ∈ segsOf os', s.Ok) {k l : Nat} (hk : k < nPins n) (hl : l < nPins n) (rk : ReachesPin os (pinAt n) k) (rl : ReachesPin os (pinAt n) l) :
    RoutesJoin (segsOf os') ((netVias os').map (DVia.out vname)) (pinAt n) k l := by
  obtain ⟨pick, fuel, c, h1, h2, h3, h4, _⟩ := hc n os os' h
  have hp : ∀ w ∈ (segsOf os).map DSeg.checked, w.Proper := by
    intro w hw
    obtain ⟨s, hs, rfl⟩ := List.mem_map.1 hw
    rw [← drawnAs_eq]
    exact hd s hs
  have fk := found_of_reaches hk rk
  have fl := found_of_reaches hl rl
  by_cases hlen : 2 ≤ (foundPins (initObjs (mergedWires ((segsOf os).map DSeg.checked)) ((netVias os).map DVia.checked)) (pinAt n) (nPins n)).length
  · have := c47_cleanup_keeps_connection hp _ _ (pinAt n) (nPins n) pick fuel hlen h1 h2
    rw [← h3, ← h4] at this
    exact join_of_connected hok found_at this fk fl
  · -- with one pin found the check fails
    exfalso
    obtain ⟨p, hp', _⟩ := fk
    match hfp : foundPins (initObjs (mergedWires ((segsOf os).map DSeg.checked)) ((netVias os).map DVia.checked)) (pinAt n) (nPins n) with
    | [] => rw [hfp] at hp'; simp at hp'
    | [q] =>
      unfold checkNet at h2
      simp only [hfp, List.map_cons, List.map_nil] at h2
      have := c32_one_pin_fails (initObjs (mergedWires ((segsOf os).map DSeg.checked)) ((netVias os).map DVia.checked)) q.2 pick fuel
      cases hg : checkGraph (initObjs (mergedWires ((segsOf os).map DSeg.checked)) ((netVias os).map DVia.checked)) [q.2] pick fuel with
      | none => rw [hg] at this; simp at this
      | some r =>
        rw [hg] at this h2
        simp only [Option.map_some, Option.some.injEq] at this
        simp [this] at h2
    | _ :: _ :: _ => rw [hfp] at hlen; simp at hlen

theorem mem_segsOf {os : List DObj} {s : DSeg} : s ∈ segsOf os ↔ .seg s ∈ os := by
  unfold segsOf
  rw [List.mem_filterMap]
  constructor
  · rintro ⟨o, ho, h⟩
    cases o <;> simp at h
    subst h; exact ho
  · exact fun h => ⟨_, h, rfl⟩

theorem mem_viasOf {os : List DObj} {s : DVia} : s ∈ netVias os ↔ .via s ∈ os := by
  unfold netVias
  rw [List.mem_filterMap]
  constructor
  · rintro ⟨o, ho, h⟩
    cases o <;> simp at h
    subst h; exact ho
  · exact fun h => ⟨_, h, rfl⟩

theorem mem_patchesOf {os : List DObj} {s : DPatch} : s ∈ patchesOf os ↔ .patch s ∈ os := by
  unfold patchesOf
  rw [List.mem_filterMap]
  constructor
  · rintro ⟨o, ho, h⟩
    cases o <;> simp at h
    subst h; exact ho
  · exact fun h => ⟨_, h, rfl⟩

/-- **C179 (file).** Detailed routing by any number of threads in any order, ended without an error exit, then written and read back: every net is read with the wires and vias it has
at the end. Either detailed routing left the net as it was, or the net passed the connectivity check and, if no wire then had length zero, the wires and vias of the file join every
two pins of the net that routes reached at that check. -/
theorem c179_file {R : RunEnv} (hR : R.Ok) (hw : RunWritable R T vname) {pinAt : Nat → Nat → Node → Bool} {nPins : Nat → Nat} (hc : CleansBy R pinAt nPins)
    {P : Type} {Q : DrProg P} (hq : DrDescribes R Q) {name : Nat → String} (hn : R.nets.Pairwise (fun a b => name a ≠ name b))
    {S S' : RunSt} (hS : ∀ n, S.flag n = false) (hS0 : ∀ o ∈ S.d.objs, o.Writable T vname) (h : ThrMain R Q S (some S')) :
    ∀ n ∈ R.nets, ∃ ws vs, rdNet T n (writeNet T false (outNets R name vname S'.d) (name n)) = some (ws, vs) ∧
      (∀ s, s ∈ ws ↔ s.net = n ∧ .seg s ∈ S'.d.objs) ∧
      (objsOf n S'.d.objs = objsOf n S.d.objs ∨ ∃ os, R.clean n os = some (objsOf n S'.d.objs) ∧
        (Drawn os → ∀ k l, k < nPins n → l < nPins n → ReachesPin os (pinAt n) k → ReachesPin os (pinAt n) l → RoutesJoin ws vs (pinAt n) k l)) := by
  intro n hn'
  have hrun := c177_detailed_routing hq h
  have hfin : ∀ o ∈ S'.d.objs, o.Writable T vname := c179_writable hR hw schedule hS0 hrun.symm
  have hmem : ∀ o, o ∈ objsOf n S'.d.objs ↔ o ∈ S'.d.objs ∧ o.net = n := by
    intro o; unfold objsOf; rw [List.mem_filter]; simp
  refine ⟨segsOf (objsOf n S'.d.objs), (netVias (objsOf n S'.d.objs)).map (DVia.out vname), ?_, ?_, ?_⟩
  · have := c80_round_trip T (outNets R name vname S'.d) ?_ ⟨name n, segsOf (objsOf n S'.d.objs), (netVias (objsOf n S'.d.objs)).map (DVia.out vname), patchesOf (objsOf n S'.d.objs), []⟩
      ?_ n ?_ ?_ ?_
    · exact this
    · unfold outNets
      rw [List.pairwise_map]
      exact hn
    · exact List.mem_map_of_mem hn'
    · intro s hs
      obtain ⟨h1, h2⟩ := (hmem _).1 (mem_segsOf.1 hs)
      obtain ⟨a, b, c⟩ := hfin _ h1
      exact ⟨a, h2, b, c⟩
    · intro v hv
      obtain ⟨u, hu, rfl⟩ := List.mem_map.1 hv
      exact hfin _ ((hmem _).1 (mem_viasOf.1 hu)).1
    · intro p hp
      exact hfin _ ((hmem _).1 (mem_patchesOf.1 hp)).1
  · intro s
    rw [mem_segsOf, hmem]
    exact And.comm
  · rcases c110_every_change_checked hR hS hrun.symm n with e | ⟨os, e⟩
    · exact .inl e
    · refine .inr ⟨os, e, ?_⟩
      intro hd k l hk hl rk rl
      refine c179_check hc e hd ?_ hk hl rk rl
      intro s hs
      exact (hfin _ ((hmem _).1 (mem_segsOf.1 hs)).1).1

/-! ### a run -/

/-- a check built on `Verif.Conn`, for two layers of metal: wires get the style their ends say, vias and patches their usual metal -/
def wholeClean (pinAt : Nat → Nat → Node → Bool) (nPins : Nat → Nat) (n : Nat) (os : List DObj) : Option (List DObj) :=
  let ws := (segsOf os).map DSeg.checked
  let vs := (netVias os).map DVia.checked
  let objs := initObjs (mergedWires ws) vs
  match checkNet ws vs ((patchesOf os).map (fun p => ⟨p.o, p.layer⟩)) (pinAt n) (nPins n) (fun _ _ => 0) (checkFuel objs ((foundPins objs (pinAt n) (nPins n)).map Prod.snd)) with
  | some (.clean c) =>
    if c.wires.all (fun w => decide ((w.layer = 2 ∨ w.layer = 4) ∧ (w.b.x = w.e.x ∧ w.b.y ≤ w.e.y ∨ w.b.y = w.e.y ∧ w.b.x ≤ w.e.x))) &&
        c.vias.all (fun v => decide (v.l1 = 2 ∧ v.l2 = 4)) && c.patches.all (fun p => decide (p.layer = 2 ∨ p.layer = 4)) then
      some (c.wires.map (fun w => .seg ⟨n, w.layer, w.b, w.e, ⟨if w.truncB then .truncate else .extend, if w.truncB then 0 else 5, if w.truncE then .truncate else .extend,
          if w.truncE then 0 else 5, 10⟩⟩) ++
        c.vias.map (fun v => .via ⟨n, v.l1 + 1, v.o, ⟨⟨-5, -5⟩, ⟨5, 5⟩⟩⟩) ++ c.patches.map (fun p => .patch ⟨n, p.layer, p.pt, ⟨⟨-5, -5⟩, ⟨5, 5⟩⟩⟩))
    else none
  | _ => none

/-- net 1 has pins at (1000, 1000) and (3000, 1000) on layer 2 -/
def wholePinAt (n k : Nat) (nd : Node) : Bool := n == 1 && nd.layer == 2 && nd.pt.x == 1000 + 2000 * k && nd.pt.y == 1000

/-- in the first iteration net 1 is routed by a wire that goes too far and two vias, in the other iterations nothing is changed -/
def wholeEnv : RunEnv :=
  { E := wbEnv, grid := ⟨⟨⟨0, 0⟩, ⟨7000, 7000⟩⟩, ⟨0, 1000, 7⟩, ⟨0, 1000, 7⟩⟩, nets := [1]
    router := fun i W D => if i = 0 then ⟨fun n => decide (n = 1), [.seg ⟨1, 4, ⟨1000, 1000⟩, ⟨4000, 1000⟩, ⟨.extend, 5, .extend, 5, 10⟩⟩,
      .via ⟨1, 3, ⟨1000, 1000⟩, ⟨⟨-5, -5⟩, ⟨5, 5⟩⟩⟩, .via ⟨1, 3, ⟨3000, 1000⟩, ⟨⟨-5, -5⟩, ⟨5, 5⟩⟩⟩], []⟩ else ⟨fun _ => false, [], []⟩
    clean := wholeClean wholePinAt (fun _ => 2) }

def wholeTech : DefTech := ⟨fun l => if l = 2 then "M1" else if l = 4 then "M2" else "M", fun n => if n = "M1" then some 2 else if n = "M2" then some 4 else none,
   fun _ => 10, fun n => if n = "V12" then some (2, 3) else none⟩

def wholeStart : RunSt := ⟨⟨[], []⟩, fun _ => false, []⟩

theorem wholeClean_some {pinAt : Nat → Nat → Node → Bool} {nPins : Nat → Nat} {n : Nat} {os os' : List DObj} (h : wholeClean pinAt nPins n os = some os') :
    ∃ c : Cleaned, checkNet ((segsOf os).map DSeg.checked) ((netVias os).map DVia.checked) ((patchesOf os).map (fun p => ⟨p.o, p.layer⟩)) (pinAt n) (nPins n) (fun _ _ => 0)
        (checkFuel (initObjs (mergedWires ((segsOf os).map DSeg.checked)) ((netVias os).map DVia.checked))
      ((foundPins (initObjs (mergedWires ((segsOf os).map DSeg.checked)) ((netVias os).map DVia.checked)) (pinAt n) (nPins n)).map Prod.snd)) = some (.clean c) ∧
      (∀ w ∈ c.wires, (w.layer = 2 ∨ w.layer = 4) ∧ (w.b.x = w.e.x ∧ w.b.y ≤ w.e.y ∨ w.b.y = w.e.y ∧ w.b.x ≤ w.e.x)) ∧ (∀ v ∈ c.vias, v.l1 = 2 ∧ v.l2 = 4) ∧
      (∀ p ∈ c.patches, p.layer = 2 ∨ p.layer = 4) ∧
      os' = c.wires.map (fun w => .seg ⟨n, w.layer, w.b, w.e, ⟨if w.truncB then .truncate else .extend, if w.truncB then 0 else 5, if w.truncE then .truncate else .extend,
          if w.truncE then 0 else 5, 10⟩⟩) ++
        c.vias.map (fun v => .via ⟨n, v.l1 + 1, v.o, ⟨⟨-5, -5⟩, ⟨5, 5⟩⟩⟩) ++ c.patches.map (fun p => .patch ⟨n, p.layer, p.pt, ⟨⟨-5, -5⟩, ⟨5, 5⟩⟩⟩) := by
  unfold wholeClean at h
  simp only at h
  split at h
  · rename_i c hc
    split at h
    · rename_i ha
      simp only [Bool.and_eq_true, List.all_eq_true, decide_eq_true_eq] at ha
      exact ⟨c, hc, ha.1.1, ha.1.2, ha.2, by cases h; rfl⟩
    · simp at h
  · simp at h

theorem wholeEnv_clean : wholeEnv.clean = wholeClean wholePinAt (fun _ => 2) := rfl

theorem wholeParts {α β γ : Type} (a : List α) (b : List β) (c : List γ) (f : α → DSeg) (g : β → DVia) (h : γ → DPatch) :
    segsOf (a.map (fun x => .seg (f x)) ++ b.map (fun x => .via (g x)) ++ c.map (fun x => .patch (h x))) = a.map f ∧
    netVias (a.map (fun x => .seg (f x)) ++ b.map (fun x => .via (g x)) ++ c.map (fun x => .patch (h x))) = b.map g ∧
    patchesOf (a.map (fun x => .seg (f x)) ++ b.map (fun x => .via (g x)) ++ c.map (fun x => .patch (h x))) = c.map h := by
  have z : ∀ {δ ε : Type} (l : List δ), l.filterMap (fun _ => (none : Option ε)) = [] := by
    intro δ ε l; induction l with
    | nil => rfl
    | cons _ _ ih => rw [List.filterMap_cons]; exact ih
  unfold segsOf netVias patchesOf
  simp only [List.filterMap_append, List.filterMap_map, Function.comp_def, z, List.append_nil, List.nil_append]
  refine ⟨?_, ?_, ?_⟩ <;> exact congrFun List.filterMap_eq_map' _

theorem whole_cleans : CleansBy wholeEnv wholePinAt (fun _ => 2) := by
  intro n os os' h
  obtain ⟨c, h1, h2, h3, h4, rfl⟩ := wholeClean_some (by rw [wholeEnv_clean] at h; exact h)
  refine ⟨_, _, c, Nat.le_refl _, h1, ?_, ?_, ?_⟩
  · rw [(wholeParts ..).1, List.map_map]
    refine (List.map_congr_left ?_).trans (List.map_id _)
    intro w _
    unfold Function.comp DSeg.checked
    cases w with
    | mk l b e tb te => cases tb <;> cases te <;> rfl
  · rw [(wholeParts ..).2.1, List.map_map]
    refine (List.map_congr_left ?_).trans (List.map_id _)
    intro v hv
    obtain ⟨a, b⟩ := h3 v hv
    unfold Function.comp DVia.checked
    cases v with
    | mk o l1 l2 => dsimp only at a b; subst a b; rfl
  · rw [(wholeParts ..).2.2, List.map_map]
    exact (List.map_congr_left (fun p _ => rfl)).trans (List.map_id _)

theorem whole_ok : wholeEnv.Ok := by
  refine ⟨?_, ?_, ?_, ?_, ?_⟩
  · intro i W D n h
    unfold wholeEnv at h ⊢
    dsimp only at h ⊢
    split at h
    · simpa using h
    · simp at h
  · intro i W D o ho
    unfold wholeEnv at ho ⊢
    dsimp only at ho ⊢
    split at ho
    · rename_i hi
      rw [if_pos hi]
      simp only [List.mem_cons, List.not_mem_nil, or_false] at ho
      rcases ho with rfl | rfl | rfl <;> rfl
    · simp at ho
  · intro n os os' h o ho
    obtain ⟨c, _, _, _, _, rfl⟩ := wholeClean_some (by rw [wholeEnv_clean] at h; exact h)
    simp only [List.mem_append, List.mem_map] at ho
    rcases ho with (⟨_, _, rfl⟩ | ⟨_, _, rfl⟩) | ⟨_, _, rfl⟩ <;> rfl
  · intro l; exact List.Perm.refl _
  · intro l x hx; exact hx

theorem whole_writable : RunWritable wholeEnv wholeTech (fun _ => "V12") := by
  refine ⟨fun _ => rfl, ?_, ?_⟩
  · intro i W D o ho
    unfold wholeEnv at ho
    dsimp only at ho
    split at ho
    · simp only [List.mem_cons, List.not_mem_nil, or_false] at ho
      rcases ho with rfl | rfl | rfl <;> simp [DObj.Writable, DSeg.Ok, SegStyle.Plain, wholeTech]
    · simp at ho
  · intro n os os' h _ o ho
    obtain ⟨c, _, h2, h3, h4, rfl⟩ := wholeClean_some (by rw [wholeEnv_clean] at h; exact h)
    simp only [List.mem_append, List.mem_map] at ho
    rcases ho with (⟨w, hw, rfl⟩ | ⟨v, hv, rfl⟩) | ⟨p, hp, rfl⟩
    · obtain ⟨a, b⟩ := h2 w hw
      refine ⟨b, ?_, ?_⟩
      · cases w.truncB <;> cases w.truncE <;> simp [SegStyle.Plain, wholeTech]
      · rcases a with a | a <;> simp [a, wholeTech]
    · obtain ⟨a, _⟩ := h3 v hv
      simp [DObj.Writable, a, wholeTech]
    · rcases h4 p hp with a | a <;> simp [DObj.Writable, a, wholeTech]

/-- the routes found in the first iteration -/
def wholeRoutes : List DObj := [.seg ⟨1, 4, ⟨1000, 1000⟩, ⟨4000, 1000⟩, ⟨.extend, 5, .extend, 5, 10⟩⟩,
  .via ⟨1, 3, ⟨1000, 1000⟩, ⟨⟨-5, -5⟩, ⟨5, 5⟩⟩⟩, .via ⟨1, 3, ⟨3000, 1000⟩, ⟨⟨-5, -5⟩, ⟨5, 5⟩⟩⟩]

/-- they have positive length and reach both pins, and pass the check -/
example : (∀ i W D, i = 0 → (wholeEnv.router i W D).routes = wholeRoutes) ∧ Drawn wholeRoutes ∧ ReachesPin wholeRoutes (wholePinAt 1) 0 ∧ ReachesPin wholeRoutes (wholePinAt 1) 1 ∧
    (wholeEnv.clean 1 wholeRoutes).isSome = true := by
  have hm : mergedWires ((segsOf wholeRoutes).map DSeg.checked) = [⟨4, ⟨1000, 1000⟩, ⟨4000, 1000⟩, false, false⟩] := by decide +kernel
  refine ⟨fun i W D h => by subst h; rfl, ?_, ?_, ?_, by decide +kernel⟩
  · intro s hs
    simp only [wholeRoutes, segsOf, List.filterMap_cons, List.filterMap_nil, List.mem_singleton] at hs
    subst hs
    simp [DSeg.drawnAs, CWire.Proper]
  · refine ⟨⟨⟨1000, 1000⟩, 2⟩, rfl, .inr ⟨⟨⟨1, 3, ⟨1000, 1000⟩, ⟨⟨-5, -5⟩, ⟨5, 5⟩⟩⟩, by simp [netVias, wholeRoutes], rfl, .inl rfl⟩, ?_⟩⟩
    rw [drawnAs_eq, hm]
    intro w hw hl
    simp only [List.mem_singleton] at hw
    subst hw
    simp at hl
  · refine ⟨⟨⟨3000, 1000⟩, 2⟩, rfl, .inr ⟨⟨⟨1, 3, ⟨3000, 1000⟩, ⟨⟨-5, -5⟩, ⟨5, 5⟩⟩⟩, by simp [netVias, wholeRoutes], rfl, .inl rfl⟩, ?_⟩⟩
    rw [drawnAs_eq, hm]
    intro w hw hl
    simp only [List.mem_singleton] at hw
    subst hw
    simp at hl

/-- the whole run: the wire is cut back to the second via, and the file holds routes that join the two pins -/
example : ∃ S', ThrMain wholeEnv (thrExProg wholeEnv) wholeStart (some S') ∧
    rdNet wholeTech 1 (writeNet wholeTech false (outNets wholeEnv (fun _ => "n1") (fun _ => "V12") S'.d) "n1") =
      some ([⟨1, 4, ⟨1000, 1000⟩, ⟨3000, 1000⟩, ⟨.extend, 5, .extend, 5, 10⟩⟩], [⟨"V12", 2, 3, ⟨1000, 1000⟩⟩, ⟨"V12", 2, 3, ⟨3000, 1000⟩⟩]) := by
  obtain ⟨hd, he⟩ := thrEx_meets whole_ok
  obtain ⟨o, ho⟩ := c177_runs (R := wholeEnv) he wholeStart
  have e := c177_detailed_routing hd ho
  have : (runMain wholeEnv wholeStart).map (fun s => rdNet wholeTech 1 (writeNet wholeTech false (outNets wholeEnv (fun _ => "n1") (fun _ => "V12") s.d) "n1")) =
      some (some ([⟨1, 4, ⟨1000, 1000⟩, ⟨3000, 1000⟩, ⟨.extend, 5, .extend, 5, 10⟩⟩], [⟨"V12", 2, 3, ⟨1000, 1000⟩⟩, ⟨"V12", 2, 3, ⟨3000, 1000⟩⟩])) := by decide +kernel
  rw [← e] at this
  cases o with
  | none => simp at this
  | some S' => exact ⟨S', ho, by simpa using this⟩

end TR
