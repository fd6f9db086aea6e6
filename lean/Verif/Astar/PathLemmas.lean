import Verif.Astar.Spec
import Verif.Astar.Model
import Verif.Astar.AbsProof
/-! Lemmas on polylines and on the trace-back bookkeeping. -/
namespace TR
open Abs (back nbr_back back_push)

theorem consecutive_append_pair {α : Type} (R : α → α → Prop) (x y : α) : ∀ l : List α,
    Consecutive R (l ++ [x, y]) ↔ Consecutive R (l ++ [x]) ∧ R x y
  | [] => by simp [Consecutive]
  | [a] => by simp [Consecutive]
  | a :: b :: t => by
    have := consecutive_append_pair R x y (b :: t)
    simp only [List.cons_append, Consecutive] at this ⊢
    rw [this, and_assoc]

theorem openCells_pair (x y : MIdx) : ∀ l : List MIdx,
    openCells (l ++ [x, y]) = openCells (l ++ [x]) ++ cellsTo x y
  | [] => by simp [openCells]
  | [a] => by simp [openCells]
  | a :: b :: t => by
    have := openCells_pair x y (b :: t)
    simp only [List.cons_append, openCells] at this ⊢
    rw [this, List.append_assoc]

theorem legDirs_pair (x y : MIdx) : ∀ l : List MIdx,
    legDirs (l ++ [x, y]) = legDirs (l ++ [x]) ++ [dirTo x y]
  | [] => by simp [legDirs]
  | [a] => by simp [legDirs]
  | a :: b :: t => by
    have := legDirs_pair x y (b :: t)
    simp only [List.cons_append, legDirs] at this ⊢
    rw [this]

theorem dirTo_move (a : MIdx) (d : Dir) (k : Nat) (hk : 1 ≤ k) (_hd : d ≠ .UNKNOWN) : dirTo a (a.move d k) = d := by
  rcases a with ⟨x, y, z⟩
  have h1 : ∀ a : Int, a < a + k * 1 := by intro a; omega
  have h2 : ∀ a : Int, ¬ (a < a + (k:Int) * -1) := by intro a; omega
  have h3 : ∀ a : Int, a + (k:Int) * -1 < a := by intro a; omega
  have h4 : ∀ a : Int, ¬ (a + (k:Int) * 0 < a) := by intro a; omega
  have h5 : ∀ a : Int, ¬ (a < a + (k:Int) * 0) := by intro a; omega
  cases d <;> simp only [dirTo, MIdx.move, Dir.delta, h1, h2, h3, h4, h5, if_true, if_false]

theorem cellsTo_move (a : MIdx) (d : Dir) (k : Nat) (hk : 1 ≤ k) (hd : d ≠ .UNKNOWN) :
    cellsTo a (a.move d k) = (List.range k).map (fun i : Nat => a.move d i) := by
  have h := dirTo_move a d k hk hd
  unfold cellsTo
  rw [h]
  congr 2
  rcases a with ⟨x, y, z⟩
  cases d <;> simp [MIdx.move, Dir.delta] at hd ⊢ <;> omega

theorem straight_move (a : MIdx) (d : Dir) (k : Nat) (hk : 1 ≤ k) (hd : d ≠ .UNKNOWN) : Straight a (a.move d k) := by
  rcases a with ⟨x, y, z⟩
  cases d <;> simp [Straight, MIdx.move, Dir.delta] at hd ⊢ <;> omega

theorem move_succ (a : MIdx) (d : Dir) (k : Nat) : a.move d (k + 1 : Nat) = (a.move d k).nbr d := by
  rcases a with ⟨x, y, z⟩
  cases d <;> simp [MIdx.move, MIdx.nbr, Dir.delta] <;> omega

theorem move_one (a : MIdx) (d : Dir) : a.move d (1 : Nat) = a.nbr d := by
  rcases a with ⟨x, y, z⟩
  cases d <;> simp [MIdx.move, MIdx.nbr, Dir.delta] <;> omega

theorem prevGrid_eq (n : MIdx) (d : Dir) : prevGrid n d = back n d := by
  rcases n with ⟨x, y, z⟩
  cases d <;> simp [prevGrid, back, MIdx.nbr, Dir.opp, Dir.delta] <;> omega

theorem nextGrid_eq (n : MIdx) (d : Dir) : nextGrid n d = n.nbr d := by
  rcases n with ⟨x, y, z⟩
  cases d <;> simp [nextGrid, MIdx.nbr, Dir.delta] <;> omega

/-- what the trace-back has recorded so far -/
structure TraceInv (t : Trace) : Prop where
  root : t.root = openCells (t.path ++ [t.cur])
  straight : Consecutive Straight (t.path ++ [t.cur])
  turns : Consecutive (· ≠ ·) (legDirs (t.path ++ [t.cur]))
  last : (t.path = [] ∧ t.prevDir = .UNKNOWN) ∨
    (t.prevDir ≠ .UNKNOWN ∧ ∃ P a k, 1 ≤ k ∧ t.path = P ++ [a] ∧ t.cur = a.move t.prevDir.opp (k : Nat))

theorem traceInv_step (t : Trace) (d : Dir) (h : TraceInv t) (hd : d ≠ .UNKNOWN) :
    TraceInv ({ t with root := t.root ++ [t.cur] }.back d) ∧
    ({ t with root := t.root ++ [t.cur] }.back d).cur = back t.cur d ∧
    ({ t with root := t.root ++ [t.cur] }.back d).root = t.root ++ [t.cur] ∧
    ({ t with root := t.root ++ [t.cur] }.back d).path ≠ [] ∧
    ({ t with root := t.root ++ [t.cur] }.back d).warn = t.warn ∧
    ({ t with root := t.root ++ [t.cur] }.back d).path.head? = (t.path ++ [t.cur]).head? := by
  have hdo : d.opp ≠ .UNKNOWN := by rw [Ne, Abs.opp_unknown]; exact hd
  rcases t with ⟨cur, pd, path, root, warn⟩
  obtain ⟨h1, h2, h3, h4⟩ := h
  simp only at h1 h2 h3 h4
  simp only [Trace.back, prevGrid_eq]
  by_cases hne : d ≠ pd
  · simp only [if_pos hne]
    have hb : back cur d = cur.move d.opp (1 : Nat) := by rw [move_one]; rfl
    refine ⟨⟨?_, ?_, ?_, ?_⟩, trivial, trivial, by simp, trivial, trivial⟩
    · simp only [List.append_assoc, List.cons_append, List.nil_append]
      rw [openCells_pair, ← h1, hb, cellsTo_move _ _ _ (Nat.le_refl 1) hdo]
      congr 1
      rcases cur with ⟨x, y, z⟩
      simp [MIdx.move]
    · simp only [List.append_assoc, List.cons_append, List.nil_append]
      rw [consecutive_append_pair]
      exact ⟨h2, hb ▸ straight_move _ _ _ (Nat.le_refl 1) hdo⟩
    · simp only [List.append_assoc, List.cons_append, List.nil_append]
      rw [legDirs_pair, hb, dirTo_move _ _ _ (Nat.le_refl 1) hdo]
      rcases h4 with ⟨rfl, _⟩ | ⟨hp, P, a, k, hk, rfl, hc⟩
      · simp [legDirs, Consecutive]
      · simp only [List.append_assoc, List.cons_append, List.nil_append] at h3 ⊢
        rw [legDirs_pair] at h3 ⊢
        rw [List.append_assoc, List.cons_append, List.nil_append, consecutive_append_pair]
        refine ⟨h3, ?_⟩
        rw [hc, dirTo_move _ _ _ hk (by rw [Ne, Abs.opp_unknown]; exact hp)]
        intro hh
        apply hne
        have := congrArg Dir.opp hh
        rw [Abs.opp_opp, Abs.opp_opp] at this
        exact this.symm
    · right
      exact ⟨hd, path, cur, 1, Nat.le_refl 1, rfl, hb⟩
  · have hpd : d = pd := by simpa using hne
    subst hpd
    rcases h4 with ⟨_, h4⟩ | ⟨hp, P, a, k, hk, rfl, hc⟩
    · exact absurd h4 hd
    · simp only [hne, if_false]
      have hb : back cur d = a.move d.opp (k + 1 : Nat) := by rw [move_succ, ← hc]; rfl
      refine ⟨⟨?_, ?_, ?_, ?_⟩, trivial, trivial, by simp, trivial, by cases P <;> rfl⟩
      · simp only [List.append_assoc, List.cons_append, List.nil_append] at h1 ⊢
        rw [openCells_pair] at h1 ⊢
        rw [h1, hb, cellsTo_move _ _ _ (by omega) hdo, hc, cellsTo_move _ _ _ hk hdo, List.range_succ,
          List.map_append, List.append_assoc]
        rfl
      · simp only [List.append_assoc, List.cons_append, List.nil_append] at h2 ⊢
        rw [consecutive_append_pair] at h2 ⊢
        exact ⟨h2.1, hb ▸ straight_move _ _ _ (by omega) hdo⟩
      · simp only [List.append_assoc, List.cons_append, List.nil_append] at h3 ⊢
        rw [legDirs_pair] at h3 ⊢
        rw [hb, dirTo_move _ _ _ (by omega) hdo]
        rw [hc, dirTo_move _ _ _ hk hdo] at h3
        exact h3
      · right
        exact ⟨hd, P, a, k + 1, by omega, rfl, hb⟩

end TR
