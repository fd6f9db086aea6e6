import Verif.Echo.Spec

namespace TR

/-- no `+` and no `;` -/
def EhPlainTok (t : EhTok) : Prop := t ≠ .plus ∧ t ≠ .semi

theorem ehSplit_cons {t : EhTok} (ht : EhPlainTok t) (r : List EhTok) :
    ehSplit (t :: r) = (ehSplit r).map (fun p => (t :: p.1, p.2)) := by
  obtain ⟨h1, h2⟩ := ht
  cases t <;> first | exact absurd rfl h1 | exact absurd rfl h2 | rfl

theorem ehSplit_head (h r : List EhTok) (hh : ∀ t ∈ h, EhPlainTok t) :
    ehSplit (h ++ r) = (ehSplit r).map (fun p => (h ++ p.1, p.2)) := by
  induction h with
  | nil => rw [List.nil_append]; cases ehSplit r <;> simp
  | cons t h ih =>
      rw [List.cons_append, ehSplit_cons (hh t (by simp)), ih (fun x hx => hh x (by simp [hx]))]
      cases ehSplit r <;> simp

theorem ehSplit_opts (os : List (List EhTok)) (ho : ∀ o ∈ os, ∀ t ∈ o, EhPlainTok t) :
    ehSplit (os.flatMap (fun o => .plus :: o) ++ [.semi]) = some ([], os) := by
  induction os with
  | nil => simp [ehSplit]
  | cons o os ih =>
      rw [List.flatMap_cons, List.append_assoc, List.cons_append]
      rw [ehSplit, ehSplit_head o _ (ho o (by simp)), ih (fun x hx => ho x (by simp [hx]))]
      simp

theorem ehSplit_stmt (h : List EhTok) (os : List (List EhTok)) (hh : ∀ t ∈ h, EhPlainTok t)
    (ho : ∀ o ∈ os, ∀ t ∈ o, EhPlainTok t) :
    ehSplit (h ++ (os.flatMap (fun o => .plus :: o) ++ [.semi])) = some (h, os) := by
  rw [ehSplit_head h _ hh, ehSplit_opts os ho]; simp

theorem ehWords_map (ns : List String) : ehWords (ns.map .word) = some ns := by
  induction ns with
  | nil => rfl
  | cons n ns ih => simp [ehWords, ih]

theorem foldlM_append' {α β : Type} (f : β → α → Option β) (s : β) (a b : List α) :
    (a ++ b).foldlM f s = (a.foldlM f s).bind (fun t => b.foldlM f t) := by
  induction a generalizing s with
  | nil => simp
  | cons x a ih =>
      rw [List.cons_append, List.foldlM_cons, List.foldlM_cons]
      cases f s x with
      | none => rfl
      | some t => exact ih t

theorem foldlM_bad {α β : Type} (f : β → α → Option β) (s : β) (l : List α) (x : α) (hx : x ∈ l)
    (hb : ∀ t, f t x = none) : l.foldlM f s = none := by
  induction l generalizing s with
  | nil => cases hx
  | cons y l ih =>
      rw [List.foldlM_cons]
      rcases List.mem_cons.1 hx with h | h
      · subst h; rw [hb]; rfl
      · cases f s y with
        | none => rfl
        | some t => exact ih t h

theorem ehOri_plain (o : Int) : EhPlainTok (ehOri o) := by
  unfold ehOri EhPlainTok; repeat' split
  all_goals simp

theorem ehReadOri_ori (o : Int) : ehReadOri (ehOri o) = if 0 ≤ o ∧ o < 8 then some o else none := by
  unfold ehOri
  repeat' split
  all_goals first
    | (subst_vars; rfl)
    | (simp_all [ehReadOri]; done)
    | (simp only [ehReadOri]; omega)
    | (exfalso; omega)

end TR
