import Verif.Run.ScheduleSpec
/-! # Lemmas about the iterations -/
namespace TR

/-! ### lists -/

theorem filter_erase_other {α : Type} [BEq α] [LawfulBEq α] {f : α → Bool} {a : α} (h : f a = false) : ∀ l : List α, (l.erase a).filter f = l.filter f
  | [] => rfl
  | b :: l => by
    rw [List.erase_cons]
    by_cases hb : b = a
    · subst hb; rw [if_pos (by simp), List.filter_cons_of_neg (by simp [h])]
    · rw [if_neg (by simpa using hb), List.filter_cons, List.filter_cons, filter_erase_other h l]

theorem filter_flatMap {α β : Type} (f : β → Bool) (g : α → List β) : ∀ l : List α, (l.flatMap g).filter f = l.flatMap (fun a => (g a).filter f)
  | [] => rfl
  | a :: l => by simp [List.flatMap_cons, List.filter_append, filter_flatMap f g l]

theorem objsOf_append (n : Nat) (a b : List DObj) : objsOf n (a ++ b) = objsOf n a ++ objsOf n b := by
  unfold objsOf; exact List.filter_append ..

theorem objsOf_none {n : Nat} {l : List DObj} (h : ∀ o ∈ l, o.net ≠ n) : objsOf n l = [] := by
  unfold objsOf
  rw [List.filter_eq_nil_iff]
  intro o ho
  simpa using h o ho

theorem objsOf_erase {n : Nat} {o : DObj} (h : o.net ≠ n) (l : List DObj) : objsOf n (l.erase o) = objsOf n l := by
  unfold objsOf
  exact filter_erase_other (by simpa using h) l

/-! ### other nets are left alone -/

theorem removeSeg_net {init : Bool} {R : Box} {w : Nat} {s : DSeg} {r} (h : removeSeg init R w s = some r) : ∀ t ∈ r.1, t.net = s.net := by
  unfold removeSeg at h
  simp only at h
  split at h
  · exact absurd h (by simp)
  · split at h
    · cases h
      intro t ht
      simp only [List.mem_append] at ht
      rcases ht with ht | ht
      · split at ht
        · simp only [List.mem_singleton] at ht; subst ht; rfl
        · simp at ht
      · split at ht
        · simp only [List.mem_singleton] at ht; subst ht; rfl
        · simp at ht
    · exact absurd h (by simp)

theorem removeObj_nets {init : Bool} {R : Box} {width : Int → Nat} {mod : Nat → Bool} (o : DObj) :
    (∀ t ∈ (removeObj init R width mod o).1, t.net = o.net) ∧ (∀ x ∈ (removeObj init R width mod o).2, mod x.1 = true) := by
  unfold removeObj
  split
  · rename_i h
    have hm : mod o.net = true := by simp only [Bool.and_eq_true] at h; exact h.2
    cases o with
    | seg s =>
      dsimp only
      split
      · simp
      · rename_i r hr
        constructor
        · intro t ht
          simp only [List.mem_map] at ht
          obtain ⟨u, hu, rfl⟩ := ht
          exact removeSeg_net hr u hu
        · intro x hx
          simp only [List.mem_map] at hx
          obtain ⟨u, hu, rfl⟩ := hx
          exact hm
    | via v => dsimp only; split <;> simp
    | patch p => dsimp only; split <;> simp
  · simp

theorem removeNets_other {init : Bool} {R : Box} {width : Int → Nat} {mod : Nat → Bool} {n : Nat} (hn : mod n = false) (objs : List DObj) :
    objsOf n (removeNets init R width mod objs).1 = objsOf n objs := by
  unfold removeNets objsOf
  dsimp only
  induction objs with
  | nil => rfl
  | cons o objs ih =>
    rw [List.flatMap_cons, List.filter_append, ih, List.filter_cons]
    by_cases ho : o.net = n
    · rw [removeObj_unmod (by rw [ho]; exact hn)]
      simp [ho]
    · have : objsOf n (removeObj init R width mod o).1 = [] := objsOf_none (fun t ht => by rw [(removeObj_nets o).1 t ht]; exact ho)
      unfold objsOf at this
      rw [this]
      simp [ho]

theorem segsAt_net {objs : List DObj} {net : Nat} {p : Node} {horz : Bool} {s : DSeg} (h : s ∈ segsAt objs net p horz) : s.net = net := by
  unfold segsAt at h
  rw [List.mem_filterMap] at h
  obtain ⟨o, _, ho⟩ := h
  cases o with
  | seg t =>
    dsimp only at ho
    split at ho
    · rename_i hc; cases ho; exact hc.2.2.1
    · exact absurd ho (by simp)
  | via v => exact absurd ho (by simp)
  | patch v => exact absurd ho (by simp)

theorem mergePt_other {grid : Int} {pinAt : Nat → Node → Bool} {ord : List DSeg → List DSeg} (hord : ∀ l, (ord l).Perm l) {n net : Nat} (hn : net ≠ n)
    (objs : List DObj) (p : Node) : objsOf n (mergePt grid pinAt ord objs net p) = objsOf n objs := by
  have key : ∀ (h h' : Bool) (s1 s2 : DSeg), ord (segsAt objs net p h) = [s1, s2] →
      objsOf n (((objs.erase (.seg s1)).erase (.seg s2)) ++ [.seg (mergeSegs h' s1 s2)]) = objsOf n objs := by
    intro h h' s1 s2 he
    have a1 : s1.net = net := segsAt_net ((hord _).mem_iff.1 (by rw [he]; simp : s1 ∈ ord (segsAt objs net p h)))
    have a2 : s2.net = net := segsAt_net ((hord _).mem_iff.1 (by rw [he]; simp : s2 ∈ ord (segsAt objs net p h)))
    rw [objsOf_append, objsOf_erase (by simpa [DObj.net, a2] using hn), objsOf_erase (by simpa [DObj.net, a1] using hn),
      objsOf_none (l := [_]) (by intro o ho; simp only [List.mem_singleton] at ho; subst ho; simpa [DObj.net, mergeSegs, a1] using hn), List.append_nil]
  unfold mergePt
  split
  · rfl
  · split
    · rfl
    · split
      · rename_i s1 s2 h1 h2; exact key true true s1 s2 h1
      · rename_i s1 s2 h1 h2; exact key false false s1 s2 h2
      · rfl

theorem addNets_other {grid : Int} {pinAt : Nat → Node → Bool} {ord : List DSeg → List DSeg} (hord : ∀ l, (ord l).Perm l) {n : Nat}
    {bounds : List (Nat × Node)} (hb : ∀ x ∈ bounds, x.1 ≠ n) {routes : List DObj} (hr : ∀ o ∈ routes, o.net ≠ n) (objs : List DObj) :
    objsOf n (addNets grid pinAt ord objs routes bounds) = objsOf n objs := by
  unfold addNets
  have : ∀ os, objsOf n (bounds.foldl (fun os x => mergePt grid pinAt ord os x.1 x.2) os) = objsOf n os := by
    induction bounds with
    | nil => intro os; rfl
    | cons x xs ih =>
      intro os
      rw [List.foldl_cons, ih (fun y hy => hb y (by simp [hy])), mergePt_other hord (hb x (by simp))]
  rw [this, objsOf_append, objsOf_none hr, List.append_nil]

/-- the write-back of a worker leaves the nets it has not rerouted alone -/
theorem workerEnd_other {E : DesignEnv} (hord : ∀ l, (E.ord l).Perm l) (harr : ∀ l, ∀ x ∈ E.arrange l, x ∈ l) {C : WorkerCfg} {ms0 : List DMarker}
    {W : WorkerResult} (hW : ∀ o ∈ W.routes, W.mod o.net = true) {n : Nat} (hn : W.mod n = false) (D : DesignSt) :
    objsOf n (workerEnd E C ms0 W D).objs = objsOf n D.objs := by
  unfold workerEnd
  simp only
  split
  · dsimp only
    rw [addNets_other hord, removeNets_other hn]
    · intro x hx hxn
      have := harr _ x hx
      unfold removeNets at this
      simp only [List.mem_flatMap] at this
      obtain ⟨o, _, ho⟩ := this
      have := (removeObj_nets o).2 x ho
      rw [hxn, hn] at this
      exact absurd this (by simp)
    · intro o ho hon
      have := hW o ho
      rw [hon, hn] at this
      exact absurd this (by simp)
  · rfl

/-- a worker that skips routing writes nothing -/
theorem workerEnd_skip {E : DesignEnv} {C : WorkerCfg} {ms0 : List DMarker} {W : WorkerResult}
    (h : skipRouting C (initMarkers C ms0).1 (initMarkers C ms0).2 = true) (D : DesignSt) : workerEnd E C ms0 W D = D := by
  unfold workerEnd
  simp only
  rw [if_neg]
  unfold writesBack
  simp [h]

/-- a net not flagged in a batch is unchanged by it -/
theorem runBatch_other {R : RunEnv} (hR : R.Ok) {c : Call} {S : RunSt} {ws : List Worker} {n : Nat} (h : (runBatch R c S ws).flag n = false) :
    objsOf n (runBatch R c S ws).d.objs = objsOf n S.d.objs := by
  unfold runBatch at h ⊢
  dsimp only at h ⊢
  rw [Bool.or_eq_false_iff] at h
  have hall : ∀ W ∈ ws, c.flags R S.d W n = false := by
    intro W hW
    have := h.2
    rw [List.any_eq_false] at this
    simpa using this W hW
  have : ∀ D, objsOf n (ws.foldl (fun D W => workerEnd R.E (c.cfg W) S.d.markers (R.router c.iter W S.d) D) D).objs = objsOf n D.objs := by
    clear h
    induction ws with
    | nil => intro D; rfl
    | cons W ws ih =>
      intro D
      rw [List.foldl_cons, ih (fun V hV => hall V (by simp [hV]))]
      have hW := hall W (by simp)
      unfold Call.flags at hW
      simp only [Bool.and_eq_false_iff, Bool.not_eq_false'] at hW
      rcases hW with hW | hW
      · rw [workerEnd_skip hW]
      · exact workerEnd_other hR.ord hR.arrange (hR.routes _ _ _) hW D
  exact this _

theorem runBatch_flag_mono {R : RunEnv} {c : Call} {S : RunSt} {ws : List Worker} {n : Nat} (h : S.flag n = true) : (runBatch R c S ws).flag n = true := by
  unfold runBatch; simp [h]

theorem runBatch_flag_nets {R : RunEnv} (hR : R.Ok) {c : Call} {S : RunSt} {ws : List Worker} {n : Nat} (hS : S.flag n = true → n ∈ R.nets)
    (h : (runBatch R c S ws).flag n = true) : n ∈ R.nets := by
  unfold runBatch at h
  simp only [Bool.or_eq_true, List.any_eq_true] at h
  rcases h with h | ⟨W, _, hW⟩
  · exact hS h
  · unfold Call.flags at hW
    simp only [Bool.and_eq_true] at hW
    exact hR.nets _ _ _ _ hW.2

theorem batches_other {R : RunEnv} (hR : R.Ok) {c : Call} (bs : List (List Worker)) {n : Nat} : ∀ S : RunSt, (bs.foldl (runBatch R c) S).flag n = false →
    objsOf n (bs.foldl (runBatch R c) S).d.objs = objsOf n S.d.objs ∧ S.flag n = false := by
  induction bs with
  | nil => intro S h; exact ⟨rfl, h⟩
  | cons b bs ih =>
    intro S h
    rw [List.foldl_cons] at h ⊢
    obtain ⟨h1, h2⟩ := ih _ h
    refine ⟨by rw [h1, runBatch_other hR h2], ?_⟩
    cases hf : S.flag n with
    | false => rfl
    | true => rw [runBatch_flag_mono hf] at h2; exact absurd h2 (by simp)

theorem batches_flag_nets {R : RunEnv} (hR : R.Ok) {c : Call} (bs : List (List Worker)) {n : Nat} : ∀ S : RunSt, (S.flag n = true → n ∈ R.nets) →
    (bs.foldl (runBatch R c) S).flag n = true → n ∈ R.nets := by
  induction bs with
  | nil => intro S h; exact h
  | cons b bs ih => intro S h; rw [List.foldl_cons]; exact ih _ (runBatch_flag_nets hR h)

/-! ### connectivity check -/

theorem checkOne_other {R : RunEnv} (hR : R.Ok) {objs objs' : List DObj} {m n : Nat} (h : checkOne R objs m = some objs') :
    (n ≠ m → objsOf n objs' = objsOf n objs) ∧ (n = m → R.clean n (objsOf n objs) = some (objsOf n objs')) := by
  unfold checkOne at h
  split at h
  · exact absurd h (by simp)
  · rename_i os hos
    cases h
    have hnet := hR.clean _ _ _ hos
    constructor
    · intro hn
      rw [objsOf_append, objsOf_none (l := os) (fun o ho => by rw [hnet o ho]; exact fun e => hn e.symm), List.append_nil]
      unfold objsOf
      rw [List.filter_filter]
      congr 1; funext o
      by_cases e : o.net = n
      · simp [e, hn]
      · simp [e]
    · rintro rfl
      rw [objsOf_append, objsOf_none (l := objs.filter _) (by intro o ho; simp at ho; exact ho.2), List.nil_append, hos]
      congr 1
      unfold objsOf
      rw [List.filter_eq_self.2]
      intro o ho
      simpa using hnet o ho

theorem checkAll_other {R : RunEnv} (hR : R.Ok) {n : Nat} : ∀ (ns : List Nat) (objs : List DObj) {objs' : List DObj}, checkAll R ns objs = some objs' →
    (n ∉ ns → objsOf n objs' = objsOf n objs) ∧ (n ∈ ns → ∃ os, R.clean n os = some (objsOf n objs'))
  | [], objs, objs', h => by unfold checkAll at h; cases h; exact ⟨fun _ => rfl, fun h => by simp at h⟩
  | m :: ns, objs, objs', h => by
    unfold checkAll at h
    split at h
    · exact absurd h (by simp)
    · rename_i o1 h1
      obtain ⟨a1, a2⟩ := checkOne_other hR (n := n) h1
      obtain ⟨b1, b2⟩ := checkAll_other hR (n := n) ns o1 h
      constructor
      · intro hn
        simp only [List.mem_cons, not_or] at hn
        rw [b1 hn.2, a1 hn.1]
      · intro hn
        by_cases hns : n ∈ ns
        · exact b2 hns
        · simp only [List.mem_cons, hns, or_false] at hn
          rw [b1 hns]
          exact ⟨_, a2 hn⟩

/-! ### violations -/

/-- no violation of this kind is seen by both boxes -/
def SeenOnce (P : DMarker → Prop) (a b : Box) : Prop := ∀ m, P m → a.overlaps m.box = true → b.overlaps m.box = false

theorem replace_other {P : DMarker → Prop} {a b : Box} (h : SeenOnce P a b) {best ms : List DMarker} (hb : ∀ m ∈ best, P m) (hm : ∀ m ∈ ms, P m) :
    (replaceMarkers a best ms).filter (fun m => b.overlaps m.box) = ms.filter (fun m => b.overlaps m.box) := by
  unfold replaceMarkers
  rw [List.filter_append, List.filter_filter, List.filter_filter]
  have h2 : best.filter (fun m => b.overlaps m.box && a.overlaps m.box) = [] := by
    rw [List.filter_eq_nil_iff]
    intro m hm'
    simp only [Bool.and_eq_true, not_and, Bool.not_eq_true]
    intro hbm
    cases ha : a.overlaps m.box with
    | false => rfl
    | true => rw [h m (hb m hm') ha] at hbm; exact absurd hbm (by simp)
  rw [h2, List.append_nil]
  apply List.filter_congr
  intro m hm'
  cases hbm : b.overlaps m.box with
  | false => simp
  | true =>
    cases ha : a.overlaps m.box with
    | false => simp
    | true => rw [h m (hm m hm') ha] at hbm; exact absurd hbm (by simp)

theorem replace_all {P : DMarker → Prop} {a : Box} {best ms : List DMarker} (hb : ∀ m ∈ best, P m) (hm : ∀ m ∈ ms, P m) : ∀ m ∈ replaceMarkers a best ms, P m := by
  intro m h
  unfold replaceMarkers at h
  rw [List.mem_append, List.mem_filter, List.mem_filter] at h
  exact h.elim (fun h => hm m h.1) (fun h => hb m h.1)

theorem workerEnd_markers {E : DesignEnv} {C : WorkerCfg} (hd : C.enableDRC = true) {ms0 : List DMarker} {W : WorkerResult} {D : DesignSt} :
    (workerEnd E C ms0 W D).markers = D.markers ∨
    (workerEnd E C ms0 W D).markers = replaceMarkers C.drcBox W.best D.markers ∧
      (C.ripupMode = 0 → 2 ≤ C.iter → W.best.length ≤ startViolations C.drcBox ms0) := by
  unfold workerEnd
  simp only
  split
  · rename_i h
    refine .inr ⟨by simp [hd], ?_⟩
    intro hm hi
    have h3 : ¬ W.best.length > (initMarkers C ms0).1 := by
      intro hgt
      unfold writesBack at h
      simp [hd, hm, hgt] at h
    rw [initMarkers_fst, if_neg (by omega)] at h3
    omega
  · exact .inl rfl

theorem start_filter (b : Box) (ms : List DMarker) : startViolations b ms = ((ms.filter (fun m => b.overlaps m.box)).filter (fun m => !m.recheck)).length := by
  unfold startViolations
  rw [List.filter_filter]
  congr 2; funext m; rw [Bool.and_comm]

/-- one batch of repair workers does not increase the number of violations -/
theorem batch_viols {R : RunEnv} {c : Call} (hm : c.ripupMode = 0) (hi : 2 ≤ c.iter) {P : DMarker → Prop} {S : RunSt}
    (hbest : ∀ W, ∀ m ∈ (R.router c.iter W S.d).best, P m) (ws : List Worker) (hs : ws.Pairwise (fun A B => SeenOnce P A.drcBox B.drcBox)) :
    ∀ D : DesignSt, (∀ m ∈ D.markers, P m) →
      (∀ W ∈ ws, D.markers.filter (fun m => W.drcBox.overlaps m.box) = S.d.markers.filter (fun m => W.drcBox.overlaps m.box)) →
      (ws.foldl (fun D W => workerEnd R.E (c.cfg W) S.d.markers (R.router c.iter W S.d) D) D).markers.length ≤ D.markers.length ∧
      (∀ m ∈ (ws.foldl (fun D W => workerEnd R.E (c.cfg W) S.d.markers (R.router c.iter W S.d) D) D).markers, P m) := by
  induction ws with
  | nil => intro D hD _; exact ⟨Nat.le_refl _, hD⟩
  | cons W ws ih =>
    intro D hD hseen
    rw [List.pairwise_cons] at hs
    rw [List.foldl_cons]
    have hW := hseen W (by simp)
    rcases workerEnd_markers (E := R.E) (C := c.cfg W) rfl (ms0 := S.d.markers) (W := R.router c.iter W S.d) (D := D) with h | ⟨h, hle⟩
    · have := ih hs.2 (workerEnd R.E (c.cfg W) S.d.markers (R.router c.iter W S.d) D) (by rw [h]; exact hD)
        (fun V hV => by rw [h]; exact hseen V (by simp [hV]))
      rw [h] at this
      exact this
    · have hle := hle hm hi
      have := ih hs.2 (workerEnd R.E (c.cfg W) S.d.markers (R.router c.iter W S.d) D)
        (by rw [h]; exact replace_all (hbest W) hD)
        (fun V hV => by rw [h]; exact (replace_other (hs.1 V hV) (hbest W) hD).trans (hseen V (by simp [hV])))
      refine ⟨Nat.le_trans this.1 ?_, this.2⟩
      rw [h]
      unfold replaceMarkers
      rw [List.length_append]
      have h2 := filter_split_length (fun m : DMarker => (c.cfg W).drcBox.overlaps m.box) D.markers
      have h4 := List.length_filter_le (fun m : DMarker => (c.cfg W).drcBox.overlaps m.box) (R.router c.iter W S.d).best
      have h5 := start_le (c.cfg W).drcBox S.d.markers
      have h6 : (S.d.markers.filter (fun m => (c.cfg W).drcBox.overlaps m.box)) = D.markers.filter (fun m => (c.cfg W).drcBox.overlaps m.box) := hW.symm
      rw [h6] at h5
      omega

theorem seen_once {g : GGrid} (hf : g.Fits) {size offset : Int} (hc : 0 < size) (ho : -size < offset) :
    ∀ colour ∈ batches BATCHSIZE g size offset, ∀ batch ∈ colour, batch.Pairwise (fun A B => SeenOnce (Compact g size) A.drcBox B.drcBox) := by
  intro colour hcol batch hb
  have hsep := c24_batch_separated BATCHSIZE g hf size offset hc ho colour hcol batch hb
  have hmem : ∀ w ∈ batch, w.routeBox.Valid ∧ w.drcBox = w.routeBox.bloat DRCSAFEDIST := by
    intro w hw
    have h1 : w ∈ (batches BATCHSIZE g size offset).flatten.flatten := by
      simp only [List.mem_flatten]; exact ⟨batch, ⟨colour, hcol, hb⟩, hw⟩
    have h2 := ((batches_inv BATCHSIZE g size offset).perm.mem_iff).1 h1
    rw [mem_genWorkers g size offset hc] at h2
    obtain ⟨k, l, _, _, rfl⟩ := h2
    refine ⟨?_, rfl⟩
    simp only [mkWorker, Box.Valid, Box.mk4_eq, Box.left, Box.right, Box.bottom, Box.top]; omega
  refine List.Pairwise.imp_of_mem ?_ hsep
  intro A B hA hB hAB m hm ha
  obtain ⟨m1, m2⟩ := hm
  obtain ⟨vA, eA⟩ := hmem A hA
  obtain ⟨vB, eB⟩ := hmem B hB
  rw [eA, Box.overlaps_true] at ha
  cases hbm : B.drcBox.overlaps m.box with
  | false => rfl
  | true =>
    rw [eB, Box.overlaps_true] at hbm
    simp only [Box.bloat, Box.Valid, Box.mk4_eq, Box.left, Box.right, Box.bottom, Box.top, DRCSAFEDIST] at *
    omega

end TR
