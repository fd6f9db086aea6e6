import Verif.GcDb.Follow
/-! # Properties C112 and C113: the shapes known to the violation checker -/
namespace TR

/-- **C112.** The checker treats two objects as one net exactly if they are connected to the same net, or are both unconnected power
pins, or both unconnected ground pins, or are one and the same unconnected object. -/
theorem c112_owners (a b : DbObj) : a.owner = b.owner ↔
    (∃ n, a.inNet = some n ∧ b.inNet = some n) ∨ (a.Floating .power ∧ b.Floating .power) ∨ (a.Floating .ground ∧ b.Floating .ground) ∨
    (a.inNet = none ∧ b.inNet = none ∧
      ((∃ id u v, a = .term id none u ∧ b = .term id none v ∧ u = .other ∧ v = .other) ∨
       (∃ id u v, a = .instTerm id none u ∧ b = .instTerm id none v ∧ u = .other ∧ v = .other) ∨
       (∃ id, a = .blockage id ∧ b = .blockage id) ∨ (∃ id, a = .instBlockage id ∧ b = .instBlockage id))) := by
  have ht : ∀ (o : Option Nat), o = none ∨ ∃ n, o = some n := fun o => by cases o with | none => exact .inl rfl | some n => exact .inr ⟨n, rfl⟩
  cases a with
  | term i n u => rcases ht n with rfl | ⟨n, rfl⟩ <;> cases u <;> (cases b with
    | term j m v => rcases ht m with rfl | ⟨m, rfl⟩ <;> cases v <;> simp [DbObj.owner, DbObj.inNet, DbObj.Floating, eq_comm]
    | instTerm j m v => rcases ht m with rfl | ⟨m, rfl⟩ <;> cases v <;> simp [DbObj.owner, DbObj.inNet, DbObj.Floating, eq_comm]
    | _ => simp [DbObj.owner, DbObj.inNet, DbObj.Floating, eq_comm])
  | instTerm i n u => rcases ht n with rfl | ⟨n, rfl⟩ <;> cases u <;> (cases b with
    | term j m v => rcases ht m with rfl | ⟨m, rfl⟩ <;> cases v <;> simp [DbObj.owner, DbObj.inNet, DbObj.Floating, eq_comm]
    | instTerm j m v => rcases ht m with rfl | ⟨m, rfl⟩ <;> cases v <;> simp [DbObj.owner, DbObj.inNet, DbObj.Floating, eq_comm]
    | _ => simp [DbObj.owner, DbObj.inNet, DbObj.Floating, eq_comm])
  | blockage i => cases b with
    | term j m v => rcases ht m with rfl | ⟨m, rfl⟩ <;> cases v <;> simp [DbObj.owner, DbObj.inNet, DbObj.Floating, eq_comm]
    | instTerm j m v => rcases ht m with rfl | ⟨m, rfl⟩ <;> cases v <;> simp [DbObj.owner, DbObj.inNet, DbObj.Floating, eq_comm]
    | _ => simp [DbObj.owner, DbObj.inNet, DbObj.Floating, eq_comm]
  | instBlockage i => cases b with
    | term j m v => rcases ht m with rfl | ⟨m, rfl⟩ <;> cases v <;> simp [DbObj.owner, DbObj.inNet, DbObj.Floating, eq_comm]
    | instTerm j m v => rcases ht m with rfl | ⟨m, rfl⟩ <;> cases v <;> simp [DbObj.owner, DbObj.inNet, DbObj.Floating, eq_comm]
    | _ => simp [DbObj.owner, DbObj.inNet, DbObj.Floating, eq_comm]
  | routed i => cases b with
    | term j m v => rcases ht m with rfl | ⟨m, rfl⟩ <;> cases v <;> simp [DbObj.owner, DbObj.inNet, DbObj.Floating, eq_comm]
    | instTerm j m v => rcases ht m with rfl | ⟨m, rfl⟩ <;> cases v <;> simp [DbObj.owner, DbObj.inNet, DbObj.Floating, eq_comm]
    | _ => simp [DbObj.owner, DbObj.inNet, DbObj.Floating, eq_comm]

/-- Non-vacuity: two cells' unconnected power pins are one net; two unconnected signal pins are not. -/
example : (DbObj.instTerm 3 none .power).owner = (DbObj.term 9 none .power).owner ∧ (DbObj.instTerm 3 none .other).owner ≠ (DbObj.instTerm 4 none .other).owner := by
  decide

theorem init_settled (F : List FixedShape) (nets : List PartNet) : Settled ⟨nets, initDb F nets, [], []⟩ F :=
  ⟨rfl, initDb_knows F nets, fun p hp => by cases hp⟩

theorem start_settled {node recheck : Bool} (h : ¬ (node = true ∧ recheck = true)) (F : List FixedShape) (nets : List PartNet) (first : List DbPatch) :
    (if recheck then CheckerSt.main node true first ⟨nets, initDb F nets, [], []⟩ else ⟨nets, initDb F nets, [], []⟩) = (⟨nets, initDb F nets, [], []⟩ : CheckerSt) := by
  cases recheck with
  | false => rfl
  | true =>
    cases node with
    | true => exact absurd ⟨rfl, rfl⟩ h
    | false => simp [CheckerSt.main]

/-- **C113.** At the start of the routing of a region and after every rerouting and every check of a queue entry, and at the final check whose
violations are reported, the checker knows exactly the fixed shapes and the present routes of the region's nets — unless patches were made in
an initial check. -/
theorem c113_follows (node recheck : Bool) (h : ¬ (node = true ∧ recheck = true)) (F : List FixedShape) (nets : List PartNet) (first : List DbPatch)
    (ops : List QueueOp) :
    (∀ s, s = ops.foldl (CheckerSt.step node) (if recheck then CheckerSt.main node true first ⟨nets, initDb F nets, [], []⟩ else ⟨nets, initDb F nets, [], []⟩) →
      Knows s.db F s.nets) ∧
    (∀ last s, s = routeQueue node recheck F nets first ops last → Knows s.db F s.nets) := by
  have h0 := steps_settled node ops (init_settled F nets)
  constructor
  · rintro s rfl
    rw [start_settled h]; exact h0.knows
  · rintro last s rfl
    simp only [routeQueue]
    rw [start_settled h]
    obtain ⟨hr, hn⟩ := knows_iff.1 h0.knows
    exact (main_write hr (fun n _ => hn n) node last).knows

/-- the route given to a net last, if any -/
def lastRoute (i : Nat) : List QueueOp → List DbFig → List DbFig
  | [], r => r
  | .reroute j figs _ :: ops, r => lastRoute i ops (if j = i then figs else r)
  | .check :: ops, r => lastRoute i ops r

theorem step_plain (s : CheckerSt) (hw : s.pw = []) (op : QueueOp) (i : Nat) :
    (s.step false op).pw = [] ∧ (s.step false op).nets[i]? = (s.nets[i]?).map (fun w => { w with route := lastRoute i [op] w.route }) := by
  have hmain : ∀ (t : CheckerSt) b ps, t.pw = [] → (t.main false b ps).pw = [] ∧ (t.main false b ps).nets = t.nets := by
    intro t b ps ht
    simp only [CheckerSt.main, Bool.and_false, Bool.false_eq_true, if_false]
    split
    · exact ⟨ht, rfl⟩
    · exact ⟨ht, rfl⟩
  cases op with
  | check =>
    obtain ⟨h1, h2⟩ := hmain s false [] hw
    refine ⟨h1, ?_⟩
    simp only [CheckerSt.step, h2, lastRoute]
    cases s.nets[i]? <;> rfl
  | reroute j figs ps =>
    simp only [CheckerSt.step]
    cases hj : s.nets[j]? with
    | none =>
      refine ⟨hw, ?_⟩
      dsimp only
      simp only [lastRoute]
      by_cases h : j = i
      · subst h; rw [hj]; rfl
      · simp only [h, if_false]; cases s.nets[i]? <;> rfl
    | some w =>
      dsimp only
      obtain ⟨h1, h2⟩ := hmain ⟨s.nets.set j { w with route := figs }, s.db, s.pending ++ [w.net], s.pw⟩ true ps hw
      refine ⟨by simp only [CheckerSt.writePatches]; exact h1, ?_⟩
      have : ∀ t : CheckerSt, t.pw = [] → t.writePatches.nets = t.nets := by intro t ht; simp [CheckerSt.writePatches, ht]
      rw [this _ h1, h2]
      simp only [lastRoute]
      by_cases h : j = i
      · subst h
        have hl : j < s.nets.length := by
          rcases Nat.lt_or_ge j s.nets.length with h | h
          · exact h
          · rw [List.getElem?_eq_none h] at hj; cases hj
        rw [List.getElem?_set_self hl, hj]; simp
      · rw [List.getElem?_set_ne h]; simp only [h, if_false]; cases s.nets[i]? <;> rfl

theorem lastRoute_cons (i : Nat) (op : QueueOp) (ops : List QueueOp) (r : List DbFig) : lastRoute i (op :: ops) r = lastRoute i ops (lastRoute i [op] r) := by
  cases op <;> rfl

/-- Without the patches of the one process node, the routes the final check sees — and that are kept — are those given last to each net. -/
theorem c113_routes (recheck : Bool) (F : List FixedShape) (nets : List PartNet) (first : List DbPatch) (ops : List QueueOp) (last : List DbPatch) (i : Nat) :
    (routeQueue false recheck F nets first ops last).nets[i]? = (nets[i]?).map (fun w => { w with route := lastRoute i ops w.route }) := by
  have key : ∀ (ops : List QueueOp) (s : CheckerSt), s.pw = [] → (ops.foldl (CheckerSt.step false) s).pw = [] ∧
      (ops.foldl (CheckerSt.step false) s).nets[i]? = (s.nets[i]?).map (fun w => { w with route := lastRoute i ops w.route }) := by
    intro ops
    induction ops with
    | nil => intro s hw; refine ⟨hw, ?_⟩; simp only [List.foldl_nil, lastRoute]; cases s.nets[i]? <;> rfl
    | cons op ops ih =>
      intro s hw
      obtain ⟨h1, h2⟩ := step_plain s hw op i
      obtain ⟨h3, h4⟩ := ih _ h1
      refine ⟨h3, ?_⟩
      rw [List.foldl_cons, h4, h2]
      cases s.nets[i]? with
      | none => rfl
      | some w => simp [lastRoute_cons i op ops]
  obtain ⟨h1, h2⟩ := key ops ⟨nets, initDb F nets, [], []⟩ rfl
  simp only [routeQueue]
  rw [start_settled (by simp)]
  rw [← h2]
  simp only [CheckerSt.main, Bool.and_false, Bool.false_eq_true, if_false]
  split
  · simp [CheckerSt.writePatches, CheckerSt.update, h1]
  · simp [CheckerSt.writePatches, h1]

/-! ## A region with three nets -/

def followBox (x : Int) : Box := ⟨⟨x, 0⟩, ⟨x + 40, 60⟩⟩
/-- net 7 has two parts; net 8 has a pin and a wire -/
def followNets : List PartNet :=
  [⟨7, [.seg 4 (followBox 0)], [.seg 4 (followBox 100), .via 4 5 6 [followBox 100] [followBox 110] [followBox 100]]⟩,
   ⟨8, [], [.seg 4 (followBox 300)]⟩, ⟨7, [], [.patch 6 (followBox 500)]⟩]
def followFixed : List FixedShape := [⟨.instTerm 3 (some 8) .other, false, 4, followBox 320⟩, ⟨.blockage 5, false, 4, followBox 700⟩, ⟨.instTerm 4 none .power, true, 5, followBox 900⟩]
def followOps : List QueueOp := [.reroute 0 [.seg 4 (followBox 150)] [], .check, .reroute 1 [.via 2 3 4 [followBox 300] [followBox 310] [followBox 300]] [], .check]

/-- the final check sees the new routes, the unchanged second part of net 7 and the fixed shapes -/
example : (routeQueue false true followFixed followNets [] followOps []).db (.net 7) =
      ⟨[], [], [(4, followBox 0), (4, followBox 150), (6, followBox 500)], []⟩ ∧
    (routeQueue false true followFixed followNets [] followOps []).db (.net 8) = ⟨[(4, followBox 320)], [], [(2, followBox 300), (4, followBox 300)], [(3, followBox 310)]⟩ ∧
    (routeQueue false true followFixed followNets [] followOps []).db .vdd = ⟨[], [(5, followBox 900)], [], []⟩ := by decide +kernel

/-- Patches made in an initial check stay known to the checker although they are in no route: the final check of such a region can miss
or report violations that are not in the result. -/
theorem c113_initial_patches_counterexample :
    ∃ (F : List FixedShape) (nets : List PartNet) (first : List DbPatch) (ops : List QueueOp) (last : List DbPatch),
      ¬ Knows (routeQueue true true F nets first ops last).db F (routeQueue true true F nets first ops last).nets := by
  refine ⟨followFixed, followNets, [⟨1, 4, followBox 340⟩], [.reroute 0 [.seg 4 (followBox 150)] []], [], fun h => ?_⟩
  have hm := (h.metal 8 4 (followBox 340)).1 (by decide +kernel)
  have hn : (routeQueue true true followFixed followNets [⟨1, 4, followBox 340⟩] [.reroute 0 [.seg 4 (followBox 150)] []] []).nets =
      [⟨7, [.seg 4 (followBox 0)], [.seg 4 (followBox 150)]⟩, ⟨8, [], [.seg 4 (followBox 300)]⟩, ⟨7, [], [.patch 6 (followBox 500)]⟩] := by decide +kernel
  rw [hn] at hm
  obtain ⟨w, hw, hn, f, hf, hx⟩ := hm
  simp only [List.mem_cons, List.not_mem_nil, or_false] at hw
  rcases hw with rfl | rfl | rfl
  · simp at hn
  · simp only [List.not_mem_nil, List.mem_singleton, false_or] at hf
    subst hf
    simp [DbFig.metal, followBox] at hx
  · simp at hn

end TR
