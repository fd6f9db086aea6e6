import Verif.Astar.AbsProof
/-!
# Near-optimality of the search on an abstract graph (proof device)

The abstract search of `Verif.Astar.Abs` with a cost record in every entry and a frontier that
hands out an entry of least total cost.
-/
namespace TR.AbsC
open Abs

structure CE (K : Type) where
  e : Ent
  k : K

structure Sys (K : Type) where
  V : View
  nx : K → MIdx → Dir → Dir → K
  pc : K → Nat
  fc : K → Nat
  wt : MIdx → Dir → Nat
  est : MIdx → Dir → Nat
  kap : Nat

structure Sys.OK {K : Type} (S : Sys K) : Prop where
  lo : ∀ k n l d, S.V.edge n d = true → S.pc k + S.wt n d ≤ S.pc (S.nx k n l d)
  hi : ∀ k n l d, S.V.edge n d = true → S.pc (S.nx k n l d) ≤ S.pc k + S.wt n d + S.kap
  fcx : ∀ k n l d, S.fc (S.nx k n l d) = S.pc (S.nx k n l d) + S.est (n.nbr d) d
  cons : ∀ k n l d, S.V.edge n d = true → S.pc k + S.est n l ≤ S.pc (S.nx k n l d) + S.est (n.nbr d) d
  eps : ∀ n l l', l' ≠ .UNKNOWN → S.est n l ≤ S.est n l' + S.kap

variable {K : Type}

structure CSt (K : Type) where
  q : List (CE K)
  prev : MIdx → Dir

def CSt.st (s : CSt K) : St := ⟨s.q.map (·.e), s.prev⟩

def pushC (S : Sys K) (a : CE K) (d : Dir) : CE K := ⟨push a.e d, S.nx a.k a.e.n a.e.d1 d⟩

def expandDirC (S : Sys K) (a : CE K) (s : CSt K) (d : Dir) : CSt K :=
  if expandable S.V s.prev a.e d then
    if a.e.d2 ≠ .UNKNOWN then
      if s.prev (back a.e.n a.e.d1) = .UNKNOWN ∨ s.prev (back a.e.n a.e.d1) = a.e.d2 then
        ⟨s.q ++ [pushC S a d], setPrev s.prev (back a.e.n a.e.d1) a.e.d2⟩
      else s
    else ⟨s.q ++ [pushC S a d], s.prev⟩
  else s

def expandAllC (S : Sys K) (a : CE K) (s : CSt K) : CSt K := allDirs.foldl (expandDirC S a) s

def loopC (S : Sys K) (top : List (CE K) → Nat) : Nat → CSt K → Option (CSt K × Option (CE K))
  | 0, _ => none
  | f + 1, s =>
    match s.q[top s.q]? with
    | none => some (s, none)
    | some a =>
      let s' : CSt K := ⟨s.q.eraseIdx (top s.q), s.prev⟩
      if s.prev a.e.n ≠ .UNKNOWN then loopC S top f s'
      else if S.V.dst a.e.n then some (s', some a)
      else loopC S top f (expandAllC S a s')

theorem st_expandDirC (S : Sys K) (a : CE K) (s : CSt K) (d : Dir) :
    (expandDirC S a s d).st = expandDir S.V a.e s.st d := by
  unfold expandDirC expandDir
  show CSt.st (if _ then if _ then if _ then _ else _ else _ else _) = if expandable S.V s.prev a.e d then
    if a.e.d2 ≠ .UNKNOWN then
      if s.prev (back a.e.n a.e.d1) = .UNKNOWN ∨ s.prev (back a.e.n a.e.d1) = a.e.d2 then _ else _ else _ else _
  split
  · split
    · split
      · simp [CSt.st, pushC]
      · rfl
    · simp [CSt.st, pushC]
  · rfl

theorem st_foldC (S : Sys K) (a : CE K) (ds : List Dir) : ∀ s : CSt K,
    (ds.foldl (expandDirC S a) s).st = ds.foldl (expandDir S.V a.e) s.st := by
  induction ds with
  | nil => intro s; rfl
  | cons d ds ih => intro s; simp only [List.foldl_cons]; rw [ih, st_expandDirC]

theorem fold_failC (S : Sys K) (a : CE K) (ds : List Dir) : ∀ s : CSt K, ¬ tailOK s.prev a.e →
    ds.foldl (expandDirC S a) s = s := by
  induction ds with
  | nil => intro s _; rfl
  | cons d ds ih =>
    intro s h
    have : expandDirC S a s d = s := by
      simp only [tailOK, not_or] at h
      simp [expandDirC, h.1, h.2.1, h.2.2]
    rw [List.foldl_cons, this, ih s h]

theorem fold_okC (S : Sys K) (a : CE K) (ds : List Dir) : ∀ s : CSt K, tailOK s.prev a.e →
    ds.foldl (expandDirC S a) s =
      ⟨s.q ++ (ds.filter (fun d => decide (expandable S.V s.prev a.e d))).map (pushC S a),
        newPrev S.V s.prev a.e ds⟩ := by
  induction ds with
  | nil => intro s _; simp [newPrev]
  | cons d ds ih =>
    intro s h
    rw [List.foldl_cons]
    by_cases hx : expandable S.V s.prev a.e d
    · by_cases h2 : a.e.d2 = .UNKNOWN
      · have : expandDirC S a s d = ⟨s.q ++ [pushC S a d], s.prev⟩ := by simp [expandDirC, hx, h2]
        rw [this, ih ⟨s.q ++ [pushC S a d], s.prev⟩ h]
        simp [newPrev, h2, hx]
      · have ht : s.prev (back a.e.n a.e.d1) = .UNKNOWN ∨ s.prev (back a.e.n a.e.d1) = a.e.d2 := by
          rcases h with h | h
          · exact absurd h h2
          · exact h
        have : expandDirC S a s d = ⟨s.q ++ [pushC S a d], setPrev s.prev (back a.e.n a.e.d1) a.e.d2⟩ := by
          simp [expandDirC, hx, h2, ht]
        rw [this, ih _ (Or.inr (Or.inr (by simp [setPrev])))]
        simp only [expandable_setPrev]
        have e1 : newPrev S.V (setPrev s.prev (back a.e.n a.e.d1) a.e.d2) a.e ds = setPrev s.prev (back a.e.n a.e.d1) a.e.d2 := by
          simp only [newPrev]
          split
          · rfl
          · rw [setPrev_setPrev]
        have e2 : newPrev S.V s.prev a.e (d :: ds) = setPrev s.prev (back a.e.n a.e.d1) a.e.d2 := by
          simp [newPrev, h2, hx]
        rw [e1, e2]
        simp [hx]
    · have : expandDirC S a s d = s := by simp [expandDirC, hx]
      rw [this, ih s h]
      simp [newPrev, hx]

end TR.AbsC
