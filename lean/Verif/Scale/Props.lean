import Verif.Scale.Spec

/-!
# C202: lengths of the technology in database units
-/

namespace TR

theorem lsLen_near (N : Nat) (v : Int) : LsNear N v (lsLen N v) := by
  unfold LsNear lsLen lsRound
  generalize v * (N : Int) = p
  split <;> omega

theorem lsArea_near (N : Nat) (v : Int) : LsNearArea N v (lsArea N v) := by
  unfold LsNearArea lsArea lsRound
  generalize v * (N : Int) * N = p
  split <;> omega

theorem lsTrunc_below (N : Nat) (v : Int) : LsBelow N v (lsTrunc N v) := by
  intro hv
  have h : 0 ≤ v * (N : Int) := Int.mul_nonneg hv (by omega)
  unfold lsTrunc
  rw [Int.tdiv_eq_ediv_of_nonneg h]
  omega

theorem lsLen_exact (N : Nat) (v : Int) (h : (1000000 : Int) ∣ v * N) : LsExact N v (lsLen N v) := by
  unfold LsExact lsLen lsRound
  generalize v * (N : Int) = p at h ⊢
  split <;> omega

theorem lsItem_holds (N : Nat) (s : LsStmt) (h : ∀ n, s ≠ .units n) : ∃ it, lsItem N s = some it ∧ LsHolds N s it := by
  cases s with
  | units n => exact absurd rfl (h n)
  | grid v => exact ⟨_, rfl, lsLen_near N v⟩
  | rect a b c d => exact ⟨_, rfl, lsLen_near N a, lsLen_near N b, lsLen_near N c, lsLen_near N d⟩
  | size a b c d => exact ⟨_, rfl, lsLen_near N a, lsLen_near N b, lsLen_near N c, lsLen_near N d⟩
  | cut ss =>
      refine ⟨_, rfl, by simp, ?_⟩
      intro i c hc
      refine ⟨lsCut N c, by rw [List.getElem?_map, hc]; rfl, lsLen_near N _, ?_⟩
      unfold lsCut lsZero
      dsimp only
      split
      · next e =>
          have := lsLen_near N c.within
          rw [e] at this
          exact .inl ⟨rfl, this⟩
      · exact .inr (lsLen_near N _)
  | routing l =>
      refine ⟨_, rfl, lsLen_near N _, ?_, ?_, lsLen_near N _, ?_, ?_⟩
      · unfold lsMinWidth
        split
        · exact Int.le_refl _
        · split <;> omega
      · unfold lsMinWidth
        cases l.minWidth with
        | none => rfl
        | some m =>
            dsimp only
            by_cases hlt : lsLen N l.width < lsLen N m
            · rw [if_pos hlt]
              refine .inr ⟨rfl, ?_⟩
              intro k hk
              have := lsLen_near N m
              unfold LsNear at this hk
              omega
            · rw [if_neg hlt]
              exact .inl (lsLen_near N m)
      · cases l.area with
        | none => rfl
        | some a => exact ⟨_, rfl, lsArea_near N a⟩
      · unfold lsStep
        cases l.steps.getLast? with
        | none => rfl
        | some s =>
            obtain ⟨x, y⟩ := s
            refine ⟨_, _, rfl, lsTrunc_below N x, ?_⟩
            cases y with
            | none => rfl
            | some m => exact lsTrunc_below N m

theorem lsFrom_append (d : Nat) (a b : List LsStmt) : lsFrom d (a ++ b) = lsFrom d a ++ lsFrom (a.foldl lsUnits d) b := by
  induction a generalizing d with
  | nil => rfl
  | cons s a ih => simp only [List.cons_append, lsFrom, List.foldl_cons, ih, List.append_assoc]

theorem lsUnits_plain {f : List LsStmt} (h : LsPlain f) (d : Nat) : f.foldl lsUnits d = d := by
  induction f with
  | nil => rfl
  | cons s f ih =>
      have : lsUnits d s = d := by
        cases s with
        | units n => exact absurd List.mem_cons_self (h n)
        | _ => rfl
      rw [List.foldl_cons, this]
      exact ih fun n hn => h n (List.mem_cons_of_mem _ hn)

theorem lsFrom_plain {f : List LsStmt} (h : LsPlain f) (N : Nat) :
    (lsFrom N f).length = f.length ∧ ∀ (i : Nat) s, f[i]? = some s → ∃ it, (lsFrom N f)[i]? = some it ∧ LsHolds N s it := by
  induction f with
  | nil => exact ⟨rfl, fun i s hs => by simp at hs⟩
  | cons s f ih =>
      have h' : LsPlain f := fun n hn => h n (List.mem_cons_of_mem _ hn)
      obtain ⟨it, e, hit⟩ := lsItem_holds N s fun n hn => h n (hn ▸ List.mem_cons_self)
      have hu : lsUnits N s = N := by
        cases s with
        | units n => exact absurd List.mem_cons_self (h n)
        | _ => rfl
      have hf : lsFrom N (s :: f) = it :: lsFrom N f := by
        simp only [lsFrom, e, hu, Option.toList_some, List.singleton_append]
      rw [hf]
      obtain ⟨hl, hi⟩ := ih h'
      refine ⟨by simp [hl], ?_⟩
      intro i t ht
      cases i with
      | zero =>
          simp only [List.getElem?_cons_zero, Option.some.injEq] at ht
          subst ht
          exact ⟨it, rfl, hit⟩
      | succ i =>
          rw [List.getElem?_cons_succ] at ht ⊢
          exact hi i t ht

/-- **C202.** The numbers of every statement of LEF are scaled by the `UNITS` before it: what follows `UNITS N`, up to the
next `UNITS`, is stored in order, every length within half of a unit of `N` units per micron and every minimum area within
half of a square unit, whatever is before; a minimum step is never made larger. -/
theorem c202_scaled (pre f post : List LsStmt) (N : Nat) (hf : LsPlain f) :
    ∃ a b c, lsRead (pre ++ .units N :: f ++ post) = a ++ b ++ c ∧ a = lsRead pre ∧ b.length = f.length ∧
      ∀ (i : Nat) s, f[i]? = some s → ∃ it, b[i]? = some it ∧ LsHolds N s it := by
  refine ⟨lsRead pre, lsFrom N f, lsFrom N post, ?_, rfl, lsFrom_plain hf N⟩
  unfold lsRead
  rw [List.append_assoc, lsFrom_append]
  simp only [List.cons_append, lsFrom, lsItem, Option.toList_none, List.nil_append, lsUnits]
  rw [lsFrom_append, lsUnits_plain hf, List.append_assoc]

/-- C202: a length that is a whole number of units is stored exactly. -/
theorem c202_exact (N : Nat) (xl yl xh yh : Int) (h : ∀ v ∈ [xl, yl, xh, yh], (1000000 : Int) ∣ v * N) :
    ∃ a b c d, lsRead [.units N, .rect xl yl xh yh] = [.rect a b c d] ∧
      LsExact N xl a ∧ LsExact N yl b ∧ LsExact N xh c ∧ LsExact N yh d := by
  refine ⟨_, _, _, _, rfl, ?_, ?_, ?_, ?_⟩ <;> exact lsLen_exact N _ (h _ (by simp))

/-- what is stored has no extent -/
def LsItem.Null : LsItem → Prop
  | .grid v => v = 0
  | .routing w m p a st => w = 0 ∧ m = 0 ∧ p = 0 ∧ (∀ k, a = some k → k = 0) ∧ ∀ k x, st = some (k, x) → k = 0 ∧ x ≤ 0
  | .cut ss => ∀ s ∈ ss, s = (0, -1, -1)
  | .rect a b c d => a = 0 ∧ b = 0 ∧ c = 0 ∧ d = 0
  | .size a b c d => a = 0 ∧ b = 0 ∧ c = 0 ∧ d = 0

theorem lsLen_zero (v : Int) : lsLen 0 v = 0 := by simp [lsLen, lsRound]

theorem lsTrunc_zero (v : Int) : lsTrunc 0 v = 0 := by simp [lsTrunc]

/-- C202 fails before `UNITS`: all that is read of a file without `UNITS` (for which LEF has 100 units per micron) has no
extent at all, and the program goes on. -/
theorem c202_no_units (f : List LsStmt) (hf : LsPlain f) :
    (lsRead f).length = f.length ∧ ∀ it ∈ lsRead f, it.Null := by
  refine ⟨(lsFrom_plain hf 0).1, ?_⟩
  unfold lsRead
  induction f with
  | nil => intro it h; cases h
  | cons s f ih =>
      intro it hit
      have hu : lsUnits 0 s = 0 := by
        cases s with
        | units n => exact absurd List.mem_cons_self (hf n)
        | _ => rfl
      rw [lsFrom, hu, List.mem_append] at hit
      rcases hit with hit | hit
      · cases s with
        | units n => exact absurd List.mem_cons_self (hf n)
        | grid v => simp [lsItem] at hit; subst hit; exact lsLen_zero v
        | rect a b c d =>
            simp [lsItem] at hit; subst hit
            exact ⟨lsLen_zero _, lsLen_zero _, lsLen_zero _, lsLen_zero _⟩
        | size a b c d =>
            simp [lsItem] at hit; subst hit
            exact ⟨lsLen_zero _, lsLen_zero _, lsLen_zero _, lsLen_zero _⟩
        | cut ss =>
            simp [lsItem] at hit; subst hit
            intro k hk
            obtain ⟨c, _, rfl⟩ := List.mem_map.1 hk
            simp [lsCut, lsLen_zero, lsZero]
        | routing l =>
            simp [lsItem] at hit; subst hit
            refine ⟨lsLen_zero _, ?_, lsLen_zero _, ?_, ?_⟩
            · unfold lsMinWidth; split <;> simp [lsLen_zero]
            · intro k hk
              simp only [Option.map_eq_some_iff] at hk
              obtain ⟨x, _, rfl⟩ := hk
              simp [lsArea, lsRound]
            · intro k x hk
              unfold lsStep at hk
              simp only [Option.map_eq_some_iff] at hk
              obtain ⟨y, _, hy⟩ := hk
              obtain ⟨rfl, rfl⟩ := Prod.mk.inj hy
              refine ⟨lsTrunc_zero _, ?_⟩
              split <;> simp [lsTrunc_zero]
      · exact ih (fun n hn => hf n (List.mem_cons_of_mem _ hn)) it hit

/-- C202 with a design: a rectangle whose corners are whole numbers of units is where it should be — by the units of the
design, in which the result is written — exactly if LEF left the same units or the coordinate is zero. No error is reported
in either case. -/
theorem c202_placed_partial (f : List LsStmt) (g : LsDesign) (i : Nat) (xl yl xh yh x y : Int)
    (hi : g.comps[i]? = some ((xl, yl, xh, yh), x, y)) (h : ∀ v ∈ [xl, yl, xh, yh], (1000000 : Int) ∣ v * lsLast f) :
    (lsPlaced f g).1 = g.units ∧ ∃ a b c d, (lsPlaced f g).2[i]? = some (a, b, c, d) ∧
      (LsExact g.units xl (a - x) ↔ lsLast f = g.units ∨ xl = 0) ∧
      (LsExact g.units yl (b - y) ↔ lsLast f = g.units ∨ yl = 0) ∧
      (LsExact g.units xh (c - x) ↔ lsLast f = g.units ∨ xh = 0) ∧
      (LsExact g.units yh (d - y) ↔ lsLast f = g.units ∨ yh = 0) := by
  have key : ∀ v z : Int, (1000000 : Int) ∣ v * lsLast f →
      (LsExact g.units v (lsLen (lsLast f) v + z - z) ↔ lsLast f = g.units ∨ v = 0) := by
    intro v z hv
    have e := lsLen_exact _ v hv
    unfold LsExact at e ⊢
    rw [Int.add_sub_cancel, e]
    constructor
    · intro q
      by_cases hv0 : v = 0
      · exact .inr hv0
      · have := Int.eq_of_mul_eq_mul_left hv0 q
        exact .inl (by omega)
    · rintro (q | q)
      · rw [q]
      · rw [q]; simp
  refine ⟨rfl, _, _, _, _, by show (List.map _ g.comps)[i]? = _; rw [List.getElem?_map, hi]; rfl, ?_, ?_, ?_, ?_⟩ <;>
    exact key _ _ (h _ (by simp))

/-- C202 fails: LEF with 2000 units and a design with 1000, a combination that DEF allows. The pin from 0 to 0.5 microns of the
cell at 10 microns ends at 11 microns. -/
theorem c202_mixed : ∃ f g, lsLast f = 2000 ∧ g.units = 1000 ∧ g.comps = [((0, 0, 500000, 500000), 10000, 10000)] ∧
    lsPlaced f g = (1000, [(10000, 10000, 11000, 11000)]) :=
  ⟨[.units 2000], ⟨1000, [((0, 0, 500000, 500000), 10000, 10000)]⟩, rfl, rfl, rfl, by decide +kernel⟩

/-- C202 fails for the area of cut spacings, which is multiplied by the units once and compared with square units: at 1000
units per micron a rule for cuts of 0.01 square microns and more takes part for cuts of a quarter of that. -/
theorem c202_cut_area : ∃ c k, c.area = 10000 ∧ lsRead [.units 1000, .cut [c]] = [.cut [k]] ∧
    LsExact 1000 c.area k.2.2 ∧ ¬ LsNearArea 1000 c.area k.2.2 ∧ lsAreaApplies k.2.2 (50 * 50) = true ∧ 50 * 50 * 1000000 < c.area * 1000 * 1000 :=
  ⟨{ spacing := 100000, area := 10000 }, (100, -1, 10), rfl, by decide +kernel, by unfold LsExact; decide, by unfold LsNearArea; decide, rfl, by decide⟩

/-- units, a grid, a layer with its rules, a cut layer and a cell -/
example : lsRead [.grid 5000, .units 2000, .grid 5000,
      .routing { width := 70000, minWidth := some 80000, pitch := 140000, area := some 19600, steps := [(30000, none), (70300, some 50000)] },
      .cut [{ spacing := 80000, within := 100000 }], .rect (-35000) 12300 35000 170250] =
    [.grid 0, .grid 10, .routing 140 140 280 (some 78400) (some (140, 100)), .cut [(160, 200, -1)], .rect (-70) 25 70 341] := by
  decide +kernel

example : LsPlain [.grid 5000, .rect 0 0 35000 170250] := by simp [LsPlain]

end TR
