import Verif.Setup.GcProps
import Verif.PA.Track.Model
import Verif.Track.Props

/-!
# C210: no pattern of step 0 gets past the reading of guides

After the patterns of the GCells are found, the program counts, for every second layer and every
GCell, the tracks in preferred direction (src/io/io_parser_helper.cpp:896-926).  The numbers are
thrown away, but the loop divides by the step of each pattern and looks up one layer too many if
their number is even.
-/

namespace TR

/-- The pattern belongs to the layer and is counted there — src/io/io_parser_helper.cpp:905-909. -/
def stCounted (dir : DirOf) (l : Int) (t : PTrack) : Bool :=
  decide (t.layer = l) && ((dir l == some true && !t.vert) || (dir l == some false && t.vert))

/-- The GCells of one layer, `cells` of them — src/io/io_parser_helper.cpp:897-923; the outcome is the
same for each.  `layers`: number of layers. -/
def stLayer (dir : DirOf) (layers : Nat) (pats : List PTrack) (cells : Nat) (l : Nat) : PatOut Unit :=
  if cells = 0 then .ok ()
  else if l ≥ layers then .thrown
  else if pats.any (fun t => stCounted dir l t && decide (t.spc = 0)) then .divZero
  else .ok ()

/-- The loop over layers — src/io/io_parser_helper.cpp:896; `fuel` bounds the number of rounds. -/
def stLayers (dir : DirOf) (layers : Nat) (pats : List PTrack) (cells : Nat) : Nat → Nat → PatOut Unit
  | 0, _ => .ok ()
  | f + 1, l =>
    if l ≤ layers then
      match stLayer dir layers pats cells l with
      | .ok _ => stLayers dir layers pats cells f (l + 2)
      | o => o
    else .ok ()

/-- The whole loop for a grid — src/io/io_parser_helper.cpp:896-926. -/
def stCount (dir : DirOf) (layers : Nat) (pats : List PTrack) (g : GGrid) : PatOut Unit :=
  stLayers dir layers pats (g.xp.count.toNat * g.yp.count.toNat) (layers + 1) 0

/-- `buildGCellPatterns` with this loop — src/io/io_parser_helper.cpp:851-927.  `buildPatterns` has
the statements before the loop and, as the only effect of the loop, the lookup of one layer too many,
which it does not make for an odd number of layers such as 1. -/
def stRead (dir : DirOf) (layers : Nat) (pats : List PTrack) (die : Box) (gs : List SGuide) : PatOut GGrid :=
  match buildPatterns dir 1 die gs with
  | .ok g =>
    match stCount dir layers pats g with
    | .ok _ => .ok g
    | .divZero => .divZero
    | .stopped => .stopped
    | .thrown => .thrown
  | o => o

/-! ## Specification -/

/-- The pattern runs along its layer, which is one of the routing layers 0, 2, 4, … -/
def StRouting (dir : DirOf) (layers : Nat) (t : PTrack) : Prop :=
  (∃ k : Nat, t.layer = 2 * (k : Int)) ∧ t.layer < layers ∧ dir t.layer = some (!t.vert)

/-! ## Theorems -/

theorem stLayers_ok (dir : DirOf) (layers : Nat) (pats : List PTrack) (cells f l : Nat) :
    stLayers dir layers pats cells f l = .ok () ↔
      ∀ k, k < f → l + 2 * k ≤ layers → stLayer dir layers pats cells (l + 2 * k) = .ok () := by
  induction f generalizing l with
  | zero => simp [stLayers]
  | succ f ih =>
    simp only [stLayers]
    by_cases hl : l ≤ layers
    · rw [if_pos hl]
      cases h : stLayer dir layers pats cells l with
      | ok u =>
        simp only [ih]
        constructor
        · intro H k hk hle
          cases k with
          | zero => rw [Nat.mul_zero, Nat.add_zero, h]
          | succ k =>
            have := H k (by omega) (by omega)
            rw [show l + 2 * (k + 1) = l + 2 + 2 * k by omega]
            exact this
        · intro H k hk hle
          have := H (k + 1) (by omega) (by omega)
          rw [show l + 2 * (k + 1) = l + 2 + 2 * k by omega] at this
          exact this
      | divZero =>
        constructor
        · intro H; cases H
        · intro H; have := H 0 (by omega) (by omega); rw [Nat.mul_zero, Nat.add_zero, h] at this; exact this
      | stopped =>
        constructor
        · intro H; cases H
        · intro H; have := H 0 (by omega) (by omega); rw [Nat.mul_zero, Nat.add_zero, h] at this; exact this
      | thrown =>
        constructor
        · intro H; cases H
        · intro H; have := H 0 (by omega) (by omega); rw [Nat.mul_zero, Nat.add_zero, h] at this; exact this
    · rw [if_neg hl]
      refine ⟨fun _ k _ h => absurd h (by omega), fun _ => rfl⟩

/-- Reading goes on after the guides, for a grid with a GCell, just if the number of layers is odd and
every pattern that runs along its routing layer has a step. -/
theorem c210_steps_needed (dir : DirOf) (layers : Nat) (pats : List PTrack) (g : GGrid)
    (hx : 0 < g.xp.count) (hy : 0 < g.yp.count) :
    stCount dir layers pats g = .ok () ↔
      layers % 2 = 1 ∧ ∀ t ∈ pats, StRouting dir layers t → 0 < t.spc := by
  have hc : g.xp.count.toNat * g.yp.count.toNat ≠ 0 := by
    refine Nat.mul_ne_zero ?_ ?_ <;> omega
  unfold stCount
  rw [stLayers_ok]
  simp only [Nat.zero_add]
  unfold stLayer
  simp only [if_neg hc]
  constructor
  · intro H
    have hodd : layers % 2 = 1 := by
      apply Classical.byContradiction
      intro h
      have := H (layers / 2) (by omega) (by omega)
      rw [if_pos (by omega)] at this
      cases this
    refine ⟨hodd, ?_⟩
    rintro t ht ⟨⟨k, hk⟩, hlt, hd⟩
    apply Classical.byContradiction
    intro h0
    have := H k (by omega) (by omega)
    rw [if_neg (by omega), if_pos] at this
    · cases this
    · rw [List.any_eq_true]
      refine ⟨t, ht, ?_⟩
      unfold stCounted
      rw [hk] at hd
      have e : ((2 * k : Nat) : Int) = 2 * (k : Int) := by omega
      simp only [e, hd, hk, decide_true, Bool.true_and]
      cases t.vert <;> simp <;> omega
  · rintro ⟨hodd, H⟩ k hk hle
    rw [if_neg (by omega), if_neg]
    rw [List.any_eq_true]
    rintro ⟨t, ht, h⟩
    unfold stCounted at h
    simp only [Bool.and_eq_true, Bool.or_eq_true, decide_eq_true_eq, beq_iff_eq, Bool.not_eq_true'] at h
    obtain ⟨⟨h1, h2⟩, h3⟩ := h
    have := H t ht ⟨⟨k, by omega⟩, by omega, by
      rw [h1]
      rcases h2 with ⟨a, b⟩ | ⟨a, b⟩ <;> rw [a, b] <;> rfl⟩
    omega

theorem stCount_empty (dir : DirOf) (layers : Nat) (pats : List PTrack) (g : GGrid)
    (h : ¬ (0 < g.xp.count ∧ 0 < g.yp.count)) : stCount dir layers pats g = .ok () := by
  have hc : g.xp.count.toNat * g.yp.count.toNat = 0 := by
    by_cases hx : 0 < g.xp.count
    · have : g.yp.count.toNat = 0 := by omega
      rw [this, Nat.mul_zero]
    · have : g.xp.count.toNat = 0 := by omega
      rw [this, Nat.zero_mul]
  unfold stCount
  rw [stLayers_ok]
  intro k _ _
  unfold stLayer
  rw [if_pos hc]

/-- The grid is made just if it is made without regard to tracks (C104) and, if it has a GCell, every
pattern that runs along its routing layer has a step. -/
theorem c210_read (dir : DirOf) (layers : Nat) (pats : List PTrack) (die : Box) (gs : List SGuide)
    (g : GGrid) :
    stRead dir layers pats die gs = .ok g ↔
      buildPatterns dir layers die gs = .ok g ∧
      (0 < g.xp.count ∧ 0 < g.yp.count → ∀ t ∈ pats, StRouting dir layers t → 0 < t.spc) := by
  have hb : ∀ g, buildPatterns dir layers die gs = .ok g ↔
      buildPatterns dir 1 die gs = .ok g ∧ (0 < g.xp.count ∧ 0 < g.yp.count → layers % 2 = 1) := by
    intro g
    unfold buildPatterns
    simp only
    repeat' split
    all_goals simp_all
    all_goals try (rintro rfl)
    all_goals try simp_all
    rename_i h
    intro a b
    rcases Nat.mod_two_eq_zero_or_one layers with e | e
    · have := h e a
      omega
    · exact e
  rw [hb]
  unfold stRead
  cases hp : buildPatterns dir 1 die gs with
  | divZero => simp
  | stopped => simp
  | thrown => simp
  | ok g' =>
    simp only [PatOut.ok.injEq]
    by_cases hg : 0 < g'.xp.count ∧ 0 < g'.yp.count
    · have hn := c210_steps_needed dir layers pats g' hg.1 hg.2
      constructor
      · intro h
        cases hs : stCount dir layers pats g' with
        | ok u =>
          rw [hs] at h
          simp only [PatOut.ok.injEq] at h
          subst h
          exact ⟨⟨rfl, fun _ => (hn.1 hs).1⟩, fun _ => (hn.1 hs).2⟩
        | divZero => rw [hs] at h; cases h
        | stopped => rw [hs] at h; cases h
        | thrown => rw [hs] at h; cases h
      · rintro ⟨⟨rfl, h1⟩, h2⟩
        rw [hn.2 ⟨h1 hg, h2 hg⟩]
    · rw [stCount_empty dir layers pats g' hg]
      simp only [PatOut.ok.injEq]
      constructor
      · rintro rfl
        exact ⟨⟨rfl, fun h => absurd h hg⟩, fun h => absurd h hg⟩
      · rintro ⟨⟨rfl, -⟩, -⟩
        rfl

/-- So, once guides are read, the coordinates of the tracks of routing layer `2 * k` in any window are
exactly the tracks of the patterns running along it (C12): the assumption on steps made there holds. -/
theorem c210_tracks_exact (dir : DirOf) (layers : Nat) (pats : List PTrack) (g : GGrid)
    (hx : 0 < g.xp.count) (hy : 0 < g.yp.count) (h : stCount dir layers pats g = .ok ())
    (k : Nat) (hk : 2 * k < layers) (lo hi c : Int) :
    c ∈ coordVector ((pats.filter (stCounted dir (2 * (k : Int)))).map
        (fun t => ⟨t.start, t.num, t.spc⟩)) lo hi ↔
      ∃ t ∈ pats, t.layer = 2 * (k : Int) ∧ StRouting dir layers t ∧
        ∃ j : Int, 0 ≤ j ∧ j < t.num ∧ c = t.start + j * (t.spc : Int) ∧ lo ≤ c ∧ c < hi := by
  obtain ⟨_, H⟩ := (c210_steps_needed dir layers pats g hx hy).1 h
  have key : ∀ t : PTrack, stCounted dir (2 * (k : Int)) t = true ↔
      t.layer = 2 * (k : Int) ∧ StRouting dir layers t := by
    intro t
    unfold stCounted StRouting
    simp only [Bool.and_eq_true, Bool.or_eq_true, decide_eq_true_eq, beq_iff_eq, Bool.not_eq_true']
    constructor
    · rintro ⟨h1, h2⟩
      refine ⟨h1, ⟨k, h1⟩, by omega, ?_⟩
      rw [h1]
      rcases h2 with ⟨a, b⟩ | ⟨a, b⟩ <;> rw [a, b] <;> rfl
    · rintro ⟨h1, -, -, h2⟩
      refine ⟨h1, ?_⟩
      rw [h1] at h2
      rw [h2]
      cases t.vert <;> simp
  refine ((c12_coord_vector _ ?_ lo hi).2 c).trans ?_
  · intro p hp
    obtain ⟨t, ht, rfl⟩ := List.mem_map.1 hp
    obtain ⟨h1, h2⟩ := List.mem_filter.1 ht
    have := H t h1 ((key t).1 h2).2
    show (0 : Int) < (t.spc : Int)
    omega
  · constructor
    · rintro ⟨p, hp, hi⟩
      obtain ⟨t, ht, rfl⟩ := List.mem_map.1 hp
      obtain ⟨h1, h2⟩ := List.mem_filter.1 ht
      exact ⟨t, h1, ((key t).1 h2).1, ((key t).1 h2).2, hi⟩
    · rintro ⟨t, h1, h2, h3, hi⟩
      exact ⟨_, List.mem_map.2 ⟨t, List.mem_filter.2 ⟨h1, (key t).2 ⟨h2, h3⟩⟩, rfl⟩, hi⟩

/-! ## Cases -/

/-- Three layers; metal 0 horizontal, metal 2 vertical. -/
def stExDir : DirOf := fun l => if l = 0 then some true else if l = 2 then some false else none

def stExGrid : GGrid := ⟨⟨⟨0, 0⟩, ⟨20, 20⟩⟩, ⟨0, 10, 2⟩, ⟨0, 10, 2⟩⟩

/-- steps 2 and 4; the pattern across metal 0 has step 0 and does no harm -/
example : stCount stExDir 3 [⟨false, 1, 10, 2, 0⟩, ⟨true, 0, 5, 4, 2⟩, ⟨true, 0, 1, 0, 0⟩] stExGrid = .ok () := by
  decide +kernel

example : coordVector ([(⟨false, 1, 10, 2, 0⟩ : PTrack)].map (fun t => ⟨t.start, t.num, t.spc⟩)) 4 9 = [5, 7] := by
  decide +kernel

/-- step 0 along metal 2 -/
example : stCount stExDir 3 [⟨false, 1, 10, 2, 0⟩, ⟨true, 0, 1, 0, 2⟩] stExGrid = .divZero := by decide +kernel

/-- the grid of the case of C104, with a pattern of step 50 and with one of step 0 along metal 0 -/
example : stRead exGDir 13 [⟨exGDir 0 == some false, 10, 20, 50, 0⟩] ⟨⟨0, 0⟩, ⟨1000, 800⟩⟩ exGuides =
    .ok ⟨⟨⟨0, 0⟩, ⟨1000, 800⟩⟩, ⟨-95, 100, 10⟩, ⟨-90, 100, 8⟩⟩ := rfl

example : (exGDir 0).isSome = true ∧
    stRead exGDir 13 [⟨exGDir 0 == some false, 10, 1, 0, 0⟩] ⟨⟨0, 0⟩, ⟨1000, 800⟩⟩ exGuides = .divZero := ⟨rfl, rfl⟩

/-- an even number of layers -/
example : stCount stExDir 4 [⟨false, 1, 10, 2, 0⟩] stExGrid = .thrown := by decide +kernel

end TR
