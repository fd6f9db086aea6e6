import Verif.Geom.Model
/-! # Model: the store of routed shapes

`drObjs` of the region query (src/frRegionQuery.cpp:89-143, 186-215, 345-357, 550-575) and the ways the router edits
it (src/dr/FlexDR_end.cpp:70-303, 380-440; src/dr/FlexDR_conn.cpp:540-600, 680-790, 980-1010). -/
namespace TR

/-- The shapes that the objects have now, and the entries of the R-tree: the layer and the box an object had when it
was inserted. Simplification: the R-tree is a list; objects are numbers. -/
structure RStore where
  shape : Nat → Int × Box
  ents : List ((Int × Box) × Nat)

inductive StoreOp where
  | add (id : Nat)
  | remove (id : Nat)
  | set (id : Nat) (s : Int × Box)
deriving DecidableEq, Repr

/-- `addDRObj` inserts the present box; `removeDRObj` removes one entry with the present box and the pointer, if there
is one (`rtree::remove`); `setPoints`/`setStyle` change the object only. -/
def RStore.op (S : RStore) : StoreOp → RStore
  | .add i => { S with ents := (S.shape i, i) :: S.ents }
  | .remove i => { S with ents := S.ents.erase (S.shape i, i) }
  | .set i s => { S with shape := fun j => if j = i then s else S.shape j }

def RStore.run (S : RStore) : List StoreOp → RStore
  | [] => S
  | o :: r => (S.op o).run r

/-- `initDRObj` — src/frRegionQuery.cpp:550-575 -/
def RStore.init (shape : Nat → Int × Box) (ids : List Nat) : RStore := ⟨shape, ids.map (fun i => (shape i, i))⟩

/-- `queryDRObj` — src/frRegionQuery.cpp:345-357; the R-tree is taken to return exactly the entries that meet the box. -/
def RStore.query (S : RStore) (q : Box) (l : Int) : List (Box × Nat) :=
  S.ents.filterMap (fun e => if e.1.1 = l ∧ e.1.2.overlaps q = true then some (e.1.2, e.2) else none)

/-- the edits of the router -/
inductive DrEdit where
  /-- a new object: `addNet_pathSeg`, ... — src/dr/FlexDR_end.cpp:280-303, 87, 116, 157, 186, 404, 432; the second half
  of a split wire — src/dr/FlexDR_conn.cpp:701-708 -/
  | create (id : Nat) (s : Int × Box)
  /-- an object is taken out: src/dr/FlexDR_end.cpp:130, 198, 216, 236, 398-399, 426-427;
  src/dr/FlexDR_conn.cpp:557, 569, 786, 1004 -/
  | delete (id : Nat)
  /-- an object is taken out, changed, and put back: src/dr/FlexDR_conn.cpp:694-700, 737-739, 986-997 -/
  | reshape (id : Nat) (s : Int × Box)
deriving DecidableEq, Repr

def DrEdit.ops : DrEdit → List StoreOp
  | .create i s => [.set i s, .add i]
  | .delete i => [.remove i]
  | .reshape i s => [.remove i, .set i s, .add i]

def RStore.edit (S : RStore) (e : DrEdit) : RStore := S.run e.ops
def RStore.edits (S : RStore) : List DrEdit → RStore
  | [] => S
  | e :: r => (S.edit e).edits r

/-! ### specification: the objects of the design -/

/-- the objects that exist, with their shapes -/
def Live := Nat → Option (Int × Box)

def Live.start (shape : Nat → Int × Box) (ids : List Nat) : Live := fun i => if i ∈ ids then some (shape i) else none

def Live.edit (L : Live) : DrEdit → Live
  | .create i s => fun j => if j = i then some s else L j
  | .delete i => fun j => if j = i then none else L j
  | .reshape i s => fun j => if j = i then some s else L j

/-- an object is created once, and only an existing one is changed or taken out -/
def Live.Allows (L : Live) : DrEdit → Prop
  | .create i _ => L i = none
  | .delete i => L i ≠ none
  | .reshape i _ => L i ≠ none

def Live.AllowsAll (L : Live) : List DrEdit → Prop
  | [] => True
  | e :: r => L.Allows e ∧ (L.edit e).AllowsAll r

def Live.editAll (L : Live) : List DrEdit → Live
  | [] => L
  | e :: r => (L.edit e).editAll r

/-! ### proofs -/

structure StoreInv (S : RStore) (L : Live) : Prop where
  nodup : (S.ents.map Prod.snd).Nodup
  mem : ∀ s i, (s, i) ∈ S.ents ↔ L i = some s
  cur : ∀ s i, L i = some s → S.shape i = s

theorem store_create {S : RStore} {L : Live} (h : StoreInv S L) (i : Nat) (s : Int × Box) (hn : L i = none) :
    StoreInv (S.edit (.create i s)) (L.edit (.create i s)) := by
  obtain ⟨h1, h2, h3⟩ := h
  simp only [RStore.edit, DrEdit.ops, RStore.run, RStore.op, if_true]
  have hnot : ∀ t, (t, i) ∉ S.ents := by
    intro t ht; rw [(h2 t i).1 ht] at hn; cases hn
  refine ⟨?_, ?_, ?_⟩
  · simp only [List.map_cons, List.nodup_cons]
    refine ⟨?_, h1⟩
    intro hm
    obtain ⟨⟨t, j⟩, ht, rfl⟩ := List.mem_map.1 hm
    exact hnot t ht
  · intro t j
    simp only [List.mem_cons, Prod.mk.injEq, Live.edit]
    by_cases hj : j = i
    · subst hj
      simp only [if_true, and_true, Option.some.injEq]
      constructor
      · rintro (h | h)
        · exact h.symm
        · exact absurd h (hnot t)
      · intro h; exact Or.inl h.symm
    · simp only [hj, and_false, false_or, if_false]
      exact h2 t j
  · intro t j
    simp only [Live.edit]
    by_cases hj : j = i
    · subst hj; simp
    · simp only [hj, if_false]; exact h3 t j

theorem nodup_map_of {α β : Type} (f : α → β) (l : List α) (h : (l.map f).Nodup) : l.Nodup := by
  unfold List.Nodup at h ⊢
  rw [List.pairwise_map] at h
  exact h.imp (fun hn e => hn (by rw [e]))

theorem store_remove {S : RStore} {L : Live} (h : StoreInv S L) (i : Nat) (hn : L i ≠ none) :
    StoreInv (S.op (.remove i)) (L.edit (.delete i)) := by
  obtain ⟨h1, h2, h3⟩ := h
  have hnd : S.ents.Nodup := nodup_map_of Prod.snd _ h1
  cases hs : L i with
  | none => exact absurd hs hn
  | some s =>
    have hsh := h3 s i hs
    simp only [RStore.op, hsh]
    refine ⟨?_, ?_, ?_⟩
    · exact h1.sublist (List.Sublist.map _ List.erase_sublist)
    · intro t j
      rw [hnd.mem_erase_iff]
      simp only [Live.edit, ne_eq, Prod.mk.injEq]
      by_cases hj : j = i
      · subst hj
        simp only [if_true, and_true, reduceCtorEq, iff_false, not_and]
        intro hne hm
        rw [(h2 t j).1 hm] at hs
        simp only [Option.some.injEq] at hs
        exact hne hs
      · simp only [hj, and_false, not_false_eq_true, true_and, if_false]; exact h2 t j
    · intro t j
      simp only [Live.edit]
      by_cases hj : j = i
      · subst hj; simp
      · simp only [hj, if_false]; exact h3 t j

theorem store_edit {S : RStore} {L : Live} (h : StoreInv S L) (e : DrEdit) (ha : L.Allows e) :
    StoreInv (S.edit e) (L.edit e) := by
  cases e with
  | create i s => exact store_create h i s ha
  | delete i => exact store_remove h i ha
  | reshape i s =>
    have h1 := store_remove h i ha
    have h2 := store_create h1 i s (by simp [Live.edit])
    have e1 : (S.op (.remove i)).edit (.create i s) = S.edit (.reshape i s) := rfl
    have e2 : (L.edit (.delete i)).edit (.create i s) = L.edit (.reshape i s) := by
      funext j; simp only [Live.edit]; by_cases hj : j = i <;> simp [hj]
    rw [e1, e2] at h2
    exact h2

theorem store_edits {S : RStore} {L : Live} (h : StoreInv S L) (es : List DrEdit) (ha : L.AllowsAll es) :
    StoreInv (S.edits es) (L.editAll es) := by
  induction es generalizing S L with
  | nil => exact h
  | cons e es ih => exact ih (store_edit h e ha.1) ha.2

theorem store_init (shape : Nat → Int × Box) (ids : List Nat) (h : ids.Nodup) :
    StoreInv (RStore.init shape ids) (Live.start shape ids) := by
  refine ⟨?_, ?_, ?_⟩
  · simp only [RStore.init, List.map_map]
    have : (Prod.snd ∘ fun i => (shape i, i)) = id := rfl
    rw [this, List.map_id]; exact h
  · intro s i
    simp only [RStore.init, Live.start, List.mem_map, Prod.mk.injEq]
    constructor
    · rintro ⟨j, hj, rfl, rfl⟩; rw [if_pos hj]
    · intro h
      split at h
      · rename_i hi
        simp only [Option.some.injEq] at h
        exact ⟨i, hi, h, rfl⟩
      · cases h
  · intro s i h
    simp only [Live.start] at h
    split at h
    · simp only [Option.some.injEq] at h; exact h
    · cases h

end TR
