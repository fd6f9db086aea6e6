import Verif.RouteNet.Spec
import Verif.Astar.Props
/-! Legs of a path: nodes, shapes, edges, links. -/
namespace TR

def Between (a b n : MIdx) : Prop :=
  min a.x b.x ≤ n.x ∧ n.x ≤ max a.x b.x ∧ min a.y b.y ≤ n.y ∧ n.y ≤ max a.y b.y ∧
  min a.z b.z ≤ n.z ∧ n.z ≤ max a.z b.z

theorem straight_exists (a b : MIdx) (h : Straight a b) :
    ∃ (d : Dir) (k : Nat), d ≠ .UNKNOWN ∧ 1 ≤ k ∧ b = a.move d k := by
  rcases a with ⟨ax, ay, az⟩; rcases b with ⟨bx, by_, bz⟩
  simp only [Straight] at h
  rcases h with ⟨h, rfl, rfl⟩ | ⟨rfl, h, rfl⟩ | ⟨rfl, rfl, h⟩
  · rcases Int.lt_or_gt_of_ne h with h | h
    · refine ⟨.E, (bx - ax).toNat, by simp, by omega, ?_⟩
      simp [MIdx.move, Dir.delta]; omega
    · refine ⟨.W, (ax - bx).toNat, by simp, by omega, ?_⟩
      simp [MIdx.move, Dir.delta]; omega
  · rcases Int.lt_or_gt_of_ne h with h | h
    · refine ⟨.N, (by_ - ay).toNat, by simp, by omega, ?_⟩
      simp [MIdx.move, Dir.delta]; omega
    · refine ⟨.S, (ay - by_).toNat, by simp, by omega, ?_⟩
      simp [MIdx.move, Dir.delta]; omega
  · rcases Int.lt_or_gt_of_ne h with h | h
    · refine ⟨.U, (bz - az).toNat, by simp, by omega, ?_⟩
      simp [MIdx.move, Dir.delta]; omega
    · refine ⟨.D, (az - bz).toNat, by simp, by omega, ?_⟩
      simp [MIdx.move, Dir.delta]; omega

theorem mem_cellsTo (a b n : MIdx) (h : Straight a b) : (n ∈ cellsTo a b ∨ n = b) ↔ Between a b n := by
  obtain ⟨d, k, hd, hk, rfl⟩ := straight_exists a b h
  rw [cellsTo_move a d k hk hd]
  simp only [List.mem_map, List.mem_range]
  rcases a with ⟨ax, ay, az⟩; rcases n with ⟨x, y, z⟩
  constructor
  · rintro (⟨i, hi, he⟩ | he)
    · rw [← he]
      cases d <;> simp [Between, MIdx.move, Dir.delta] at hd ⊢ <;> omega
    · rw [he]
      cases d <;> simp [Between, MIdx.move, Dir.delta] at hd ⊢ <;> omega
  · intro hb
    have key : ∀ i : Nat, i ≤ k → (⟨x, y, z⟩ : MIdx) = MIdx.move ⟨ax, ay, az⟩ d i →
        (∃ i : Nat, i < k ∧ MIdx.move ⟨ax, ay, az⟩ d i = ⟨x, y, z⟩) ∨ (⟨x, y, z⟩ : MIdx) = MIdx.move ⟨ax, ay, az⟩ d k := by
      intro i hi he
      by_cases hik : i = k
      · right; rw [← hik]; exact he
      · left; exact ⟨i, by omega, he.symm⟩
    cases d <;> simp [Between, MIdx.move, Dir.delta] at hd hb
    · exact key (az - z).toNat (by omega) (by simp [MIdx.move, Dir.delta]; omega)
    · exact key (ay - y).toNat (by omega) (by simp [MIdx.move, Dir.delta]; omega)
    · exact key (ax - x).toNat (by omega) (by simp [MIdx.move, Dir.delta]; omega)
    · exact key (x - ax).toNat (by omega) (by simp [MIdx.move, Dir.delta]; omega)
    · exact key (y - ay).toNat (by omega) (by simp [MIdx.move, Dir.delta]; omega)
    · exact key (z - az).toNat (by omega) (by simp [MIdx.move, Dir.delta]; omega)

theorem mem_legNodes (a b n : MIdx) (h : Straight a b) : n ∈ legNodes a b ↔ Between a b n := by
  rcases a with ⟨ax, ay, az⟩; rcases b with ⟨bx, by_, bz⟩; rcases n with ⟨x, y, z⟩
  simp only [legNodes, Between]
  simp only [Straight] at h
  rcases h with h | h | h
  · rw [if_pos h]
    obtain ⟨h, rfl, rfl⟩ := h
    simp only [List.mem_map, mem_rangeIncl, MIdx.mk.injEq]
    constructor
    · rintro ⟨i, hi, rfl, rfl, rfl⟩; omega
    · intro hh; exact ⟨x, by omega, rfl, by omega, by omega⟩
  · rw [if_neg (by rintro ⟨h1, _⟩; exact h1 h.1), if_pos h]
    obtain ⟨rfl, h, rfl⟩ := h
    simp only [List.mem_map, mem_rangeIncl, MIdx.mk.injEq]
    constructor
    · rintro ⟨i, hi, rfl, rfl, rfl⟩; omega
    · intro hh; exact ⟨y, by omega, by omega, rfl, by omega⟩
  · rw [if_neg (by rintro ⟨h1, _⟩; exact h1 h.1), if_neg (by rintro ⟨_, h1, _⟩; exact h1 h.2.1), if_pos h]
    obtain ⟨rfl, rfl, h⟩ := h
    simp only [List.mem_map, mem_rangeIncl, MIdx.mk.injEq]
    constructor
    · rintro ⟨i, hi, rfl, rfl, rfl⟩; omega
    · intro hh; exact ⟨z, by omega, by omega, by omega, rfl⟩

theorem cells_cons_cons (a b : MIdx) (t : List MIdx) : cells (a :: b :: t) = cellsTo a b ++ cells (b :: t) := by
  simp [cells, openCells, List.getLast?_cons_cons]

theorem cells_head (b : MIdx) (t : List MIdx) (h : Consecutive Straight (b :: t)) : ∃ l, cells (b :: t) = b :: l := by
  cases t with
  | nil => exact ⟨[], rfl⟩
  | cons c t =>
    obtain ⟨d, k, hd, hk, rfl⟩ := straight_exists b c h.1
    rw [cells_cons_cons, cellsTo_move b d k hk hd]
    obtain ⟨k, rfl⟩ : ∃ j, k = j + 1 := ⟨k - 1, by omega⟩
    rw [List.range_succ_eq_map]
    refine ⟨_, by simp only [List.map_cons, List.cons_append]; congr 1; simp [MIdx.move]⟩

theorem mem_pathNodes : ∀ (path : List MIdx), Consecutive Straight path → 2 ≤ path.length → ∀ n,
    (n ∈ pathNodes path ↔ n ∈ cells path)
  | [], _, h, _ => by simp at h
  | [a], _, h, _ => by simp at h
  | [a, b], hs, _, n => by
    rw [cells_cons_cons]
    have : cells [b] = [b] := rfl
    rw [this]
    simp only [pathNodes, List.append_nil, List.mem_append, List.mem_singleton]
    rw [mem_legNodes a b n hs.1, mem_cellsTo a b n hs.1]
  | a :: b :: c :: t, hs, _, n => by
    rw [cells_cons_cons]
    have ih := mem_pathNodes (b :: c :: t) hs.2 (by simp) n
    obtain ⟨l, hl⟩ := cells_head b (c :: t) hs.2
    have e : pathNodes (a :: b :: c :: t) = legNodes a b ++ pathNodes (b :: c :: t) := rfl
    rw [e, List.mem_append, List.mem_append, ih, mem_legNodes a b n hs.1, ← mem_cellsTo a b n hs.1]
    constructor
    · rintro ((h | h) | h)
      · exact Or.inl h
      · right; rw [hl, h]; simp
      · exact Or.inr h
    · rintro (h | h)
      · exact Or.inl (Or.inl h)
      · exact Or.inr h

/-! ## Links -/

theorem Linked.trans {figs a b c} (h1 : Linked figs a b) (h2 : Linked figs b c) : Linked figs a c := by
  induction h2 with
  | refl => exact h1
  | step b' c' f _ h3 h4 h5 ih => exact .step _ _ _ f ih h3 h4 h5

theorem Linked.one {figs a b f} (hf : f ∈ figs) (ha : f.Covers a) (hb : f.Covers b) : Linked figs a b :=
  .step _ _ _ f (.refl a) hf ha hb

theorem Linked.symm {figs a b} (h : Linked figs a b) : Linked figs b a := by
  induction h with
  | refl => exact .refl _
  | step b' c' f _ h3 h4 h5 ih => exact (Linked.one h3 h5 h4).trans ih

theorem Linked.mono {figs figs' a b} (hs : ∀ f ∈ figs, f ∈ figs') (h : Linked figs a b) : Linked figs' a b := by
  induction h with
  | refl => exact .refl _
  | step b' c' f _ h3 h4 h5 ih => exact .step _ _ _ f ih (hs f h3) h4 h5

theorem legFigs_comm (g : Grid) (real : List MIdx) (a b : MIdx) (h : a ≠ b) :
    legFigs g real a b = legFigs g real b a := by
  have h1 : MIdx.lt b a = !(MIdx.lt a b) := by
    cases hb : MIdx.lt a b with
    | true =>
      cases hc : MIdx.lt b a with
      | false => rfl
      | true =>
        rw [mlt_iff] at hb hc; omega
    | false =>
      cases hc : MIdx.lt b a with
      | true => rfl
      | false =>
        exfalso
        have e1 : ¬ (MIdx.lt a b = true) := by simp [hb]
        have e2 : ¬ (MIdx.lt b a = true) := by simp [hc]
        rw [mlt_iff] at e1 e2
        apply h
        rcases a with ⟨x, y, z⟩; rcases b with ⟨u, v, w⟩
        simp only [MIdx.mk.injEq] at *; omega
  unfold legFigs
  rw [h1]
  cases MIdx.lt a b <;> rfl

/-- shapes of a leg in a positive direction -/
theorem legFigs_pos (g : Grid) (real : List MIdx) (a : MIdx) (d : Dir) (k : Nat) (hk : 1 ≤ k)
    (hd : d = .E ∨ d = .N) :
    legFigs g real a (a.move d k) = [.seg (g.layer a.z) (g.loc a) (g.loc (a.move d k)) a (a.move d k)
      (decide (a ∈ real)) (decide (a.move d k ∈ real))] := by
  have hlt : MIdx.lt (a.move d k) a = false := by
    cases h : MIdx.lt (a.move d k) a with
    | false => rfl
    | true =>
      rw [mlt_iff] at h
      rcases a with ⟨x, y, z⟩
      rcases hd with rfl | rfl <;> simp only [MIdx.move, Dir.delta] at h <;> omega
  simp only [legFigs, hlt]
  rcases hd with rfl | rfl
  · have : a.x ≠ (a.move .E k).x ∧ a.y = (a.move .E k).y ∧ a.z = (a.move .E k).z := by
      simp [MIdx.move, Dir.delta]; omega
    simp [this]
  · have h1 : a.x = (a.move .N k).x ∧ a.y ≠ (a.move .N k).y ∧ a.z = (a.move .N k).z := by
      simp [MIdx.move, Dir.delta]; omega
    have h2 : ¬ (a.x ≠ (a.move .N k).x ∧ a.y = (a.move .N k).y ∧ a.z = (a.move .N k).z) := fun h => h.1 h1.1
    simp only [Bool.false_eq_true, if_false]
    rw [if_neg h2, if_pos h1]

theorem legFigs_up (g : Grid) (real : List MIdx) (a : MIdx) (k : Nat) (hk : 1 ≤ k) :
    legFigs g real a (a.move .U k) = viaFigs g a (a.move .U k) := by
  have hlt : MIdx.lt (a.move .U k) a = false := by
    cases h : MIdx.lt (a.move .U k) a with
    | false => rfl
    | true =>
      rw [mlt_iff] at h
      rcases a with ⟨x, y, z⟩
      simp only [MIdx.move, Dir.delta] at h; omega
  have h3 : a.x = (a.move .U k).x ∧ a.y = (a.move .U k).y ∧ a.z ≠ (a.move .U k).z := by
    simp [MIdx.move, Dir.delta]; omega
  have h1 : ¬ (a.x ≠ (a.move .U k).x ∧ a.y = (a.move .U k).y ∧ a.z = (a.move .U k).z) := fun h => h.1 h3.1
  have h2 : ¬ (a.x = (a.move .U k).x ∧ a.y ≠ (a.move .U k).y ∧ a.z = (a.move .U k).z) := fun h => h.2.1 h3.2.1
  simp only [legFigs, hlt, Bool.false_eq_true, if_false, h1, h2]
  rw [if_pos h3]

theorem move_move_opp (a : MIdx) (d : Dir) (k : Nat) : (a.move d k).move d.opp k = a := by
  rcases a with ⟨x, y, z⟩
  cases d <;> simp [MIdx.move, Dir.opp, Dir.delta] <;> omega

/-- every leg runs from one end in a positive direction -/
theorem straight_pos (a b : MIdx) (h : Straight a b) :
    ∃ (d : Dir) (k : Nat), (d = .E ∨ d = .N ∨ d = .U) ∧ 1 ≤ k ∧ (b = a.move d k ∨ a = b.move d k) := by
  obtain ⟨d, k, hd, hk, rfl⟩ := straight_exists a b h
  have hm := move_move_opp a d k
  cases d
  · exact absurd rfl hd
  · exact ⟨.U, k, by simp, hk, Or.inr hm.symm⟩
  · exact ⟨.N, k, by simp, hk, Or.inr hm.symm⟩
  · exact ⟨.E, k, by simp, hk, Or.inr hm.symm⟩
  · exact ⟨.E, k, by simp, hk, Or.inl rfl⟩
  · exact ⟨.N, k, by simp, hk, Or.inl rfl⟩
  · exact ⟨.U, k, by simp, hk, Or.inl rfl⟩

theorem straight_ne (a b : MIdx) (h : Straight a b) : a ≠ b := by
  rintro rfl; simp [Straight] at h

theorem between_comm (a b n : MIdx) : Between a b n ↔ Between b a n := by
  simp only [Between]; omega

theorem via_linked (g : Grid) (s e : MIdx) : ∀ (j : Nat) (z : Int), s.z ≤ z → z + j ≤ e.z →
    Linked (viaFigs g s e) ⟨s.x, s.y, z⟩ ⟨s.x, s.y, z + j⟩
  | 0, z, _, _ => by simp only [Int.ofNat_zero, Int.natCast_zero, Int.add_zero]; exact .refl _
  | j + 1, z, h1, h2 => by
    refine .step _ _ _ (.via (g.loc ⟨s.x, s.y, z + j⟩) (g.layer (z + j) + 1) ⟨s.x, s.y, z + j⟩ ⟨s.x, s.y, z + j + 1⟩)
      (via_linked g s e j z h1 (by omega)) ?_ (Or.inl rfl) (Or.inr ?_)
    · simp only [viaFigs, List.mem_map, mem_rangeIncl]
      exact ⟨z + j, by omega, rfl⟩
    · simp only [MIdx.mk.injEq, true_and]; omega

theorem leg_linked (g : Grid) (real : List MIdx) (a b m n : MIdx) (h : Straight a b) (hm : Between a b m)
    (hn : Between a b n) : Linked (legFigs g real a b) m n := by
  have main : ∀ (a b : MIdx) (d : Dir) (k : Nat), (d = .E ∨ d = .N ∨ d = .U) → 1 ≤ k → b = a.move d k →
      Between a b m → Between a b n → Linked (legFigs g real a b) m n := by
    intro a b d k hd hk hb hm hn
    subst hb
    rcases hd with rfl | rfl | rfl
    · rw [legFigs_pos g real a .E k hk (Or.inl rfl)]
      refine Linked.one (List.mem_singleton.2 rfl) ?_ ?_ <;>
        simp only [DFig.Covers, Between, MIdx.move, Dir.delta] at * <;> omega
    · rw [legFigs_pos g real a .N k hk (Or.inr rfl)]
      refine Linked.one (List.mem_singleton.2 rfl) ?_ ?_ <;>
        simp only [DFig.Covers, Between, MIdx.move, Dir.delta] at * <;> omega
    · rw [legFigs_up g real a k hk]
      have key : ∀ n, Between a (a.move .U k) n → Linked (viaFigs g a (a.move .U k)) a n := by
        intro n hn
        have := via_linked g a (a.move .U k) (n.z - a.z).toNat a.z (by omega)
          (by simp only [Between, MIdx.move, Dir.delta] at *; omega)
        have e : (⟨a.x, a.y, a.z + ((n.z - a.z).toNat : Int)⟩ : MIdx) = n := by
          rcases n with ⟨x, y, z⟩
          simp only [Between, MIdx.move, Dir.delta, MIdx.mk.injEq] at *; omega
        rw [e] at this
        exact this
      exact (key m hm).symm.trans (key n hn)
  obtain ⟨d, k, hd, hk, hb | hb⟩ := straight_pos a b h
  · exact main a b d k hd hk hb hm hn
  · rw [legFigs_comm g real a b (straight_ne a b h)]
    exact main b a d k hd hk hb ((between_comm _ _ _).1 hm) ((between_comm _ _ _).1 hn)

/-- all nodes of a path are linked by the shapes written for it -/
theorem path_linked (g : Grid) (real : List MIdx) : ∀ (path : List MIdx), Consecutive Straight path →
    ∀ m ∈ cells path, ∀ n ∈ cells path, Linked (writePath g real path) m n
  | [], _, m, hm, _, _ => by simp [cells, openCells] at hm
  | [a], _, m, hm, n, hn => by
    simp [cells, openCells] at hm hn; subst hm; subst hn; exact .refl _
  | a :: b :: t, hs, m, hm, n, hn => by
    obtain ⟨l, hl⟩ := cells_head b t hs.2
    have key : ∀ m ∈ cells (a :: b :: t), Linked (writePath g real (a :: b :: t)) m b := by
      intro m hm
      rw [cells_cons_cons] at hm
      rcases List.mem_append.1 hm with h | h
      · refine Linked.mono ?_ (leg_linked g real a b m b hs.1 ((mem_cellsTo a b m hs.1).1 (Or.inl h))
          ((mem_cellsTo a b b hs.1).1 (Or.inr rfl)))
        intro f hf; exact List.mem_append_left _ hf
      · refine Linked.mono ?_ (path_linked g real (b :: t) hs.2 m h b (by rw [hl]; simp))
        intro f hf; exact List.mem_append_right _ hf
    exact (key m hm).trans (key n hn).symm

/-! ## Edges and locations -/

def EdgeStep (g : Grid) (u v : MIdx) : Prop := ∃ d, v = u.nbr d ∧ g.hasEdge u d = true

theorem consecutive_split {α : Type} (R : α → α → Prop) : ∀ (l1 : List α) (b : α) (l2 : List α),
    Consecutive R (l1 ++ b :: l2) → Consecutive R (l1 ++ [b]) ∧ Consecutive R (b :: l2)
  | [], b, l2, h => ⟨trivial, h⟩
  | [a], b, l2, h => ⟨⟨h.1, trivial⟩, h.2⟩
  | a :: c :: l1, b, l2, h => by
    have := consecutive_split R (c :: l1) b l2 h.2
    exact ⟨⟨h.1, this.1⟩, this.2⟩

theorem consecutive_getElem {α : Type} (R : α → α → Prop) : ∀ (l : List α) (i : Nat) (a b : α),
    Consecutive R l → l[i]? = some a → l[i + 1]? = some b → R a b
  | [], i, a, b, _, h, _ => by simp at h
  | [x], i, a, b, _, h1, h2 => by simp at h2
  | x :: y :: t, 0, a, b, h, h1, h2 => by simp at h1 h2; subst h1; subst h2; exact h.1
  | x :: y :: t, i + 1, a, b, h, h1, h2 => consecutive_getElem R (y :: t) i a b h.2 (by simpa using h1) (by simpa using h2)

theorem leg_edges (g : Grid) (a : MIdx) (d : Dir) (k : Nat) (hk : 1 ≤ k) (hd : d ≠ .UNKNOWN)
    (h : Consecutive (EdgeStep g) (cellsTo a (a.move d k) ++ [a.move d k])) (i : Nat) (hi : i < k) :
    g.hasEdge (a.move d i) d = true := by
  rw [cellsTo_move a d k hk hd] at h
  have e : (List.range k).map (fun i : Nat => a.move d i) ++ [a.move d k] = (List.range (k + 1)).map (fun i : Nat => a.move d i) := by
    rw [List.range_succ, List.map_append]; rfl
  rw [e] at h
  have h1 := consecutive_getElem _ _ i (a.move d i) (a.move d (i + 1 : Nat)) h
    (by rw [List.getElem?_map, List.getElem?_range (by omega)]; rfl)
    (by rw [List.getElem?_map, List.getElem?_range (by omega)]; rfl)
  obtain ⟨d', e1, e2⟩ := h1
  rw [move_succ] at e1
  have e3 := Abs.nbr_inj _ _ _ e1
  rw [← e3] at e2
  exact e2

theorem leg_edges_rev (g : Grid) (a : MIdx) (d : Dir) (k : Nat) 
    (h : ∀ i : Nat, i < k → g.hasEdge ((a.move d k).move d.opp i) d.opp = true) (i : Nat) (hi : i < k) :
    g.hasEdge (a.move d i) d = true := by
  have h1 := h (k - 1 - i) (by omega)
  rw [c09_symmetric, Abs.opp_opp] at h1
  have e : (MIdx.move (a.move d k) d.opp (k - 1 - i : Nat)).nbr d.opp = a.move d i := by
    rcases a with ⟨x, y, z⟩
    cases d <;> simp [MIdx.move, MIdx.nbr, Dir.opp, Dir.delta] <;> omega
  rw [e] at h1
  exact h1

theorem point_on (g : Grid) (n : MIdx) (h : g.On n) : g.point n = some (g.loc n) := by
  have h1 : n.x.toNat < g.xs.length := by have := h.1; have := h.2.1; omega
  have h2 : n.y.toNat < g.ys.length := by have := h.2.2.1; have := h.2.2.2.1; omega
  simp only [Grid.loc, Grid.point]
  rw [List.getElem?_eq_getElem h1, List.getElem?_eq_getElem h2]
  rfl

theorem layer_on (g : Grid) (n : MIdx) (h : g.On n) : g.zs[n.z.toNat]? = some (g.layer n.z) := by
  have h1 : n.z.toNat < g.zs.length := by have := h.2.2.2.2.1; have := h.2.2.2.2.2; omega
  simp only [Grid.layer, List.getD, List.getElem?_eq_getElem h1]
  rfl

theorem loc_xy (g : Grid) (n : MIdx) (h : g.On n) :
    g.xs[n.x.toNat]? = some (g.loc n).x ∧ g.ys[n.y.toNat]? = some (g.loc n).y := by
  have h1 : n.x.toNat < g.xs.length := by have := h.1; have := h.2.1; omega
  have h2 : n.y.toNat < g.ys.length := by have := h.2.2.1; have := h.2.2.2.1; omega
  simp only [Grid.loc, Grid.point]
  rw [List.getElem?_eq_getElem h1, List.getElem?_eq_getElem h2]
  exact ⟨rfl, rfl⟩

theorem pairwise_getElem? {l : List Int} (h : l.Pairwise (· < ·)) {i j : Nat} {a b : Int} (hi : l[i]? = some a)
    (hj : l[j]? = some b) (hij : i < j) : a < b := by
  obtain ⟨h1, h2⟩ := List.getElem?_eq_some_iff.1 hi
  obtain ⟨h3, h4⟩ := List.getElem?_eq_some_iff.1 hj
  rw [← h2, ← h4]
  exact List.pairwise_iff_getElem.1 h i j h1 h3 hij

theorem figOK_pos (g : Grid) (real : List MIdx) (hx : g.xs.Pairwise (· < ·)) (hy : g.ys.Pairwise (· < ·))
    (a : MIdx) (d : Dir) (k : Nat) (hk : 1 ≤ k) (hd : d = .E ∨ d = .N ∨ d = .U)
    (hE : ∀ n d, g.hasEdge n d = true → g.On n ∧ g.On (n.nbr d))
    (he : ∀ i : Nat, i < k → g.hasEdge (a.move d i) d = true) : ∀ f ∈ legFigs g real a (a.move d k), FigOK g f := by
  have ha : g.On a := by
    have := (hE _ _ (he 0 (by omega))).1
    have e : a.move d (0 : Nat) = a := by simp [MIdx.move]
    rw [e] at this; exact this
  have hb : g.On (a.move d k) := by
    have := (hE _ _ (he (k - 1) (by omega))).2
    rw [← move_succ, show k - 1 + 1 = k by omega] at this; exact this
  have la := loc_xy g a ha
  have lb := loc_xy g _ hb
  intro f hf
  rcases hd with rfl | rfl | rfl
  · rw [legFigs_pos g real a .E k hk (Or.inl rfl)] at hf
    simp only [List.mem_singleton] at hf
    subst hf
    refine ⟨ha, hb, by simp [MIdx.move, Dir.delta], layer_on g a ha, point_on g a ha, point_on g _ hb, Or.inl ⟨?_, ?_, ?_, ?_, ?_⟩⟩
    · refine pairwise_getElem? hx la.1 lb.1 ?_
      have := ha.1
      simp only [MIdx.move, Dir.delta]; omega
    · have : (a.move .E k).y = a.y := by simp [MIdx.move, Dir.delta]
      rw [this] at lb
      exact Option.some.inj (la.2.symm.trans lb.2)
    · simp [MIdx.move, Dir.delta]
    · simp only [MIdx.move, Dir.delta]; omega
    · intro i h1 h2
      have := he (i - a.x).toNat (by simp only [MIdx.move, Dir.delta] at h2; omega)
      have e : a.move .E ((i - a.x).toNat : Nat) = ⟨i, a.y, a.z⟩ := by
        simp only [MIdx.move, Dir.delta, MIdx.mk.injEq]; omega
      rw [e] at this; exact this
  · rw [legFigs_pos g real a .N k hk (Or.inr rfl)] at hf
    simp only [List.mem_singleton] at hf
    subst hf
    refine ⟨ha, hb, by simp [MIdx.move, Dir.delta], layer_on g a ha, point_on g a ha, point_on g _ hb, Or.inr ⟨?_, ?_, ?_, ?_, ?_⟩⟩
    · have : (a.move .N k).x = a.x := by simp [MIdx.move, Dir.delta]
      rw [this] at lb
      exact Option.some.inj (la.1.symm.trans lb.1)
    · refine pairwise_getElem? hy la.2 lb.2 ?_
      have := ha.2.2.1
      simp only [MIdx.move, Dir.delta]; omega
    · simp [MIdx.move, Dir.delta]
    · simp only [MIdx.move, Dir.delta]; omega
    · intro i h1 h2
      have := he (i - a.y).toNat (by simp only [MIdx.move, Dir.delta] at h2; omega)
      have e : a.move .N ((i - a.y).toNat : Nat) = ⟨a.x, i, a.z⟩ := by
        simp only [MIdx.move, Dir.delta, MIdx.mk.injEq]; omega
      rw [e] at this; exact this
  · rw [legFigs_up g real a k hk] at hf
    simp only [viaFigs, List.mem_map, mem_rangeIncl] at hf
    obtain ⟨z, hz, rfl⟩ := hf
    have hed := he (z - a.z).toNat (by simp only [MIdx.move, Dir.delta] at hz; omega)
    have e : a.move .U ((z - a.z).toNat : Nat) = ⟨a.x, a.y, z⟩ := by
      simp only [MIdx.move, Dir.delta, MIdx.mk.injEq]; omega
    rw [e] at hed
    have hon := hE _ _ hed
    have en : (⟨a.x, a.y, z⟩ : MIdx).nbr .U = ⟨a.x, a.y, z + 1⟩ := by simp [MIdx.nbr, Dir.delta]
    refine ⟨hon.1, en ▸ hon.2, en.symm, hed, point_on g _ hon.1, ?_⟩
    have := layer_on g _ hon.1
    rw [this]
    congr 1
    exact (Int.add_sub_cancel _ _).symm

theorem figOK_path (g : Grid) (real : List MIdx) (hx : g.xs.Pairwise (· < ·)) (hy : g.ys.Pairwise (· < ·))
    (hE : ∀ n d, g.hasEdge n d = true → g.On n ∧ g.On (n.nbr d)) : ∀ (path : List MIdx),
    Consecutive Straight path → Consecutive (EdgeStep g) (cells path) → ∀ f ∈ writePath g real path, FigOK g f
  | [], _, _, f, hf => by simp [writePath] at hf
  | [a], _, _, f, hf => by simp [writePath] at hf
  | a :: b :: t, hs, he, f, hf => by
    rw [cells_cons_cons] at he
    obtain ⟨l, hl⟩ := cells_head b t hs.2
    have he' := he
    rw [hl] at he
    obtain ⟨e1, e2⟩ := consecutive_split _ _ _ _ he
    rw [← hl] at e2
    rcases List.mem_append.1 hf with hf | hf
    · obtain ⟨d, k, hd, hk, rfl⟩ := straight_exists a b hs.1
      have hle := leg_edges g a d k hk hd e1
      have hpos : ∀ dd, dd = Dir.E ∨ dd = Dir.N ∨ dd = Dir.U → d = dd → FigOK g f := by
        intro dd h1 h2; subst h2
        exact figOK_pos g real hx hy a d k hk h1 hE hle f hf
      have hneg : ∀ dd, dd = Dir.E ∨ dd = Dir.N ∨ dd = Dir.U → d = dd.opp → FigOK g f := by
        intro dd h1 h2; subst h2
        have hm := move_move_opp a dd.opp k
        rw [Abs.opp_opp] at hm
        rw [legFigs_comm g real _ _ (straight_ne _ _ hs.1)] at hf
        have hf' : f ∈ legFigs g real (a.move dd.opp k) ((a.move dd.opp k).move dd k) := by rw [hm]; exact hf
        refine figOK_pos g real hx hy _ dd k hk h1 hE (leg_edges_rev g _ dd k ?_) f hf'
        intro i hi
        rw [hm]
        exact hle i hi
      cases d
      · exact absurd rfl hd
      · exact hneg .U (by simp) rfl
      · exact hneg .N (by simp) rfl
      · exact hneg .E (by simp) rfl
      · exact hpos .E (by simp) rfl
      · exact hpos .N (by simp) rfl
      · exact hpos .U (by simp) rfl
    · exact figOK_path g real hx hy hE (b :: t) hs.2 e2 f hf

end TR
