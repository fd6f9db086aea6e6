import Verif.Tech.Props

/-!
# C208: the rules that are built in for one process

For one process node, and there for one layer, the preparation adds lengths that come from the
spacing of cuts to concave corners, and forbids wires to run through one via.  This file models
these additions and states what they do to the tables of C39.

Models `prep_via2viaForbiddenLen_lef58CutSpc`, its helper (src/rp/FlexRP_prep.cpp:422-532), their
place in `prep_via2viaForbiddenLen_helper` (383-402), and `prep_viaForbiddenThrough` (44-101).  Not
modelled: `prep_via2viaForbiddenLen_minStep` (534-567), whose table no code looks up (all calls of
`isVia2ViaForbiddenLen` leave `isOverlap` false).
-/

namespace TR

/-- A LEF58 rule of a cut layer: its second layer, whether it is for concave corners, its spacing.
Models `frLef58CutSpacingConstraint` as far as it is used here. -/
structure RpCorner where
  second : Int
  concave : Bool
  spacing : Int
deriving DecidableEq, Repr

/-- The process, and the LEF58 rules of each cut layer: those in general and those for one net
(src/db/tech/frLayer.h:268-274). -/
structure RpNode where
  node : String
  general : Int → List RpCorner
  oneNet : Int → List RpCorner

/-- The process that has its own rules (src/rp/FlexRP_prep.cpp:431). -/
def rpGf14 : String := "GF14_13M_3Mx_2Cx_4Kx_2Hx_2Gx_LB"

/-- `prep_via2viaForbiddenLen_lef58CutSpc_helper` — src/rp/FlexRP_prep.cpp:520-532. -/
def rpCornerRange (b1 b2 cut : Box) (s : Int) : Int × Int :=
  let o := min (b1.top - b1.bottom) (b2.top - b2.bottom)
  let c := cut.top - cut.bottom
  (max 0 ((o - c).tdiv 2 - s), s + (o + c).tdiv 2)

/-- The ranges because of the cut of `v`, one of the two vias — src/rp/FlexRP_prep.cpp:462-489, and
alike 490-517. -/
def rpCornerVia (P : RpNode) (l : Int) (b1 b2 : Box) (v : RVia) : List (Int × Int) :=
  let rs := if !(P.general v.cut).isEmpty then P.general v.cut else P.oneNet v.cut
  (rs.filter (fun r => r.second == l && r.concave)).map (fun r => rpCornerRange b1 b2 v.cutBox r.spacing)

/-- `prep_via2viaForbiddenLen_lef58CutSpc` — src/rp/FlexRP_prep.cpp:422-518. -/
def rpCornerRanges (P : RpNode) (l : Int) (v1 v2 : RVia) (dirX : Bool) : List (Int × Int) :=
  if P.node ≠ rpGf14 then []
  else if l ≠ 10 ∨ dirX = true then []
  else if ¬ ((v1.l1 = l ∧ v2.l2 = l) ∨ (v1.l2 = l ∧ v2.l1 = l)) then []
  else rpCornerVia P l (v1.boxOn l) (v2.boxOn l) v1 ++ rpCornerVia P l (v1.boxOn l) (v2.boxOn l) v2

/-- All ranges of two vias — src/rp/FlexRP_prep.cpp:381-384; nothing if a via is missing. -/
def rpRanges (T : RTech) (P : RpNode) (l : Int) (v1 v2 : Option RVia) (dirX : Bool) :
    List (Int × Int) :=
  v2vRanges T l v1 v2 dirX ++
    match v1, v2 with
    | some a, some b => rpCornerRanges P l a b dirX
    | _, _ => []

/-- The table of a layer with the rules of the process — src/rp/FlexRP_prep.cpp:344-366. -/
def rpTable (T : RTech) (P : RpNode) (l : Int) (down up : Option RVia) : LenTable :=
  let f := fun v1 v2 dirX => storeRanges (rpRanges T P l v1 v2 dirX)
  [f down down true, f down down false, f down up true, f down up false,
   f up down true, f up down false, f up up true, f up up false]

/-- `prep_viaForbiddenThrough_minStep`; the via is given by its name —
src/rp/FlexRP_prep.cpp:88-100. -/
def rpThrough (l : Int) (via : Option String) : Bool :=
  match via with
  | none => false
  | some n => l == 10 && n == "CK_23_28_0_26_VH_CK"

/-- `prep_viaForbiddenThrough` for one layer — src/rp/FlexRP_prep.cpp:66-69. -/
def rpThroughTable (l : Int) (down up : Option String) : List Bool :=
  [rpThrough l down, rpThrough l down, rpThrough l up, rpThrough l up]

/-- `isViaForbiddenThrough` for one layer — src/db/tech/frTechObject.h:156-159. -/
def isViaThrough (t : List Bool) (down dirX : Bool) : Option Bool := t[entry2 (!down) (!dirX)]?

/-! ## Specification -/

/-- Distance along y between a cut of half height `c` and the near end, at `d - o`, of metal of half
height `o` that is centred `d` above the cut. -/
def cornerGap (c o d : Int) : Int := max (d - o) (o - d) - c

/-- The rule applies to the cut layer: the general rules if there are any, else those for one
net. -/
def RpNode.Applies (P : RpNode) (cut : Int) (r : RpCorner) : Prop :=
  r ∈ P.general cut ∨ (P.general cut = [] ∧ r ∈ P.oneNet cut)

/-! ## Theorems -/

theorem rpTable_query (T : RTech) (P : RpNode) (l : Int) (down up : Option RVia)
    (prevDown currDown dirX : Bool) (len : Int) :
    isVia2Via (rpTable T P l down up) prevDown currDown dirX len =
      some (isIncluded (storeRanges (rpRanges T P l (if prevDown then down else up)
        (if currDown then down else up) dirX)) len) := by
  cases prevDown <;> cases currDown <;> cases dirX <;> rfl

/-- In all other processes, and on all other layers, the tables are those of the rules of the
technology. -/
theorem c208_other_processes (T : RTech) (P : RpNode) (l : Int) (down up : Option RVia)
    (h : P.node ≠ rpGf14 ∨ l ≠ 10) : rpTable T P l down up = v2vTable T l down up := by
  have e : ∀ v1 v2 dirX, rpRanges T P l v1 v2 dirX = v2vRanges T l v1 v2 dirX := by
    intro v1 v2 dirX
    unfold rpRanges
    cases v1 with
    | none => simp
    | some a =>
      cases v2 with
      | none => simp
      | some b =>
        have : rpCornerRanges P l a b dirX = [] := by
          unfold rpCornerRanges
          split
          · rfl
          · rename_i h1
            rw [if_pos]
            rcases h with h | h
            · exact absurd h h1
            · exact .inl h
        simp [this]
  unfold rpTable v2vTable
  simp only [e]

/-- Wherever the additions apply, they allow no length that the rules of the technology forbid. -/
theorem c208_only_added (T : RTech) (P : RpNode) (l : Int) (down up : Option RVia)
    (prevDown currDown dirX : Bool) (len : Int)
    (h : isVia2Via (v2vTable T l down up) prevDown currDown dirX len = some true) :
    isVia2Via (rpTable T P l down up) prevDown currDown dirX len = some true := by
  rw [c39_via2via_query] at h
  rw [rpTable_query]
  simp only [Option.some.injEq] at h ⊢
  rw [c53_forbidden_iff] at h ⊢
  have up : ∀ x, InRanges (v2vRanges T l (if prevDown then down else up)
      (if currDown then down else up) dirX) x → InRanges (rpRanges T P l
      (if prevDown then down else up) (if currDown then down else up) dirX) x := by
    rintro x ⟨r, hr, hx⟩
    exact ⟨r, List.mem_append_left _ hr, hx⟩
  exact ⟨up _ h.1, up _ h.2.1, up _ h.2.2⟩

theorem rpCornerVia_mem {P : RpNode} {l : Int} {b1 b2 : Box} {v : RVia} {r : RpCorner}
    (h : P.Applies v.cut r) (hl : r.second = l) (hc : r.concave = true) :
    rpCornerRange b1 b2 v.cutBox r.spacing ∈ rpCornerVia P l b1 b2 v := by
  unfold rpCornerVia
  refine List.mem_map.2 ⟨r, List.mem_filter.2 ⟨?_, by simp [hl, hc]⟩, rfl⟩
  rcases h with h | ⟨h1, h2⟩
  · rw [if_pos]
    · exact h
    · cases hg : P.general v.cut with
      | nil => rw [hg] at h; cases h
      | cons a t => rfl
  · rw [if_neg (by simp [h1])]
    exact h2

theorem rpCornerRange_centred {b1 b2 cut : Box} (h1 : b1.Centred) (h2 : b2.Centred)
    (h3 : cut.Centred) (s : Int) : rpCornerRange b1 b2 cut s =
      (max 0 (min b1.top b2.top - cut.top - s), s + (min b1.top b2.top + cut.top)) := by
  unfold rpCornerRange
  have e1 : b1.top - b1.bottom = 2 * b1.top := by rw [h1.2]; omega
  have e2 : b2.top - b2.bottom = 2 * b2.top := by rw [h2.2]; omega
  have e3 : cut.top - cut.bottom = 2 * cut.top := by rw [h3.2]; omega
  have e4 : min (2 * b1.top) (2 * b2.top) = 2 * min b1.top b2.top := by omega
  simp only [e1, e2, e3, e4]
  have d1 : (2 * min b1.top b2.top - 2 * cut.top).tdiv 2 = min b1.top b2.top - cut.top := by
    rw [show 2 * min b1.top b2.top - 2 * cut.top = 2 * (min b1.top b2.top - cut.top) by omega]
    exact Int.mul_tdiv_cancel_left _ (by decide)
  have d2 : (2 * min b1.top b2.top + 2 * cut.top).tdiv 2 = min b1.top b2.top + cut.top := by
    rw [show 2 * min b1.top b2.top + 2 * cut.top = 2 * (min b1.top b2.top + cut.top) by omega]
    exact Int.mul_tdiv_cancel_left _ (by decide)
  rw [d1, d2]

/-- In the process, on its layer, moving along y between a via below and a via above: every length
at which the cut of either via is closer to the end of the shorter metal than a rule for concave
corners asks for is forbidden. -/
theorem c208_corner (T : RTech) (P : RpNode) (down up : Option RVia) (prevDown currDown : Bool)
    {v1 v2 v : RVia} (hP : P.node = rpGf14)
    (hv1 : (if prevDown then down else up) = some v1) (hv2 : (if currDown then down else up) = some v2)
    (hside : (v1.l1 = 10 ∧ v2.l2 = 10) ∨ (v1.l2 = 10 ∧ v2.l1 = 10)) (hv : v = v1 ∨ v = v2)
    (hc1 : (v1.boxOn 10).Centred) (hc2 : (v2.boxOn 10).Centred) (hc : v.cutBox.Centred)
    {r : RpCorner} (hr : P.Applies v.cut r) (hs : r.second = 10) (hcc : r.concave = true)
    {d : Int} (hd : 0 < d)
    (hgap : cornerGap v.cutBox.top (min (v1.boxOn 10).top (v2.boxOn 10).top) d < r.spacing) :
    isVia2Via (rpTable T P 10 down up) prevDown currDown false d = some true := by
  rw [rpTable_query, hv1, hv2]
  congr 1
  have hm : rpCornerRange (v1.boxOn 10) (v2.boxOn 10) v.cutBox r.spacing ∈
      rpRanges T P 10 (some v1) (some v2) false := by
    unfold rpRanges
    refine List.mem_append_right _ ?_
    dsimp only
    unfold rpCornerRanges
    rw [if_neg (by simp [hP]), if_neg (by simp), if_neg (by simp [hside])]
    rcases hv with rfl | rfl
    · exact List.mem_append_left _ (rpCornerVia_mem hr hs hcc)
    · exact List.mem_append_right _ (rpCornerVia_mem hr hs hcc)
  rw [rpCornerRange_centred hc1 hc2 hc] at hm
  unfold cornerGap at hgap
  refine c53_inside_forbidden hm ?_ ?_
  · dsimp only; omega
  · dsimp only; omega

/-- The range of one such rule holds no other lengths. -/
theorem c208_corner_exact {b1 b2 cut : Box} (h1 : b1.Centred) (h2 : b2.Centred) (h3 : cut.Centred)
    (s d : Int) :
    isIncluded (storeRanges [rpCornerRange b1 b2 cut s]) d = true ↔
      0 < d ∧ cornerGap cut.top (min b1.top b2.top) d < s := by
  rw [c53_forbidden_iff, rpCornerRange_centred h1 h2 h3]
  unfold InRanges cornerGap
  simp only [List.mem_singleton, exists_eq_left]
  omega

/-- Nothing is added along x, nor between two vias on one side of the layer, nor if no rule for
concave corners of the layer applies to either cut. -/
theorem c208_nothing_else (T : RTech) (P : RpNode) (l : Int) (down up : Option RVia)
    (prevDown currDown dirX : Bool) (d : Int)
    (h : dirX = true ∨
      (∀ v1 v2 : RVia, (if prevDown then down else up) = some v1 → (if currDown then down else up) = some v2 →
        ¬ ((v1.l1 = l ∧ v2.l2 = l) ∨ (v1.l2 = l ∧ v2.l1 = l))) ∨
      (∀ v : RVia, (if prevDown then down else up) = some v ∨ (if currDown then down else up) = some v →
        ∀ r, P.Applies v.cut r → ¬ (r.second = l ∧ r.concave = true))) :
    isVia2Via (rpTable T P l down up) prevDown currDown dirX d =
      isVia2Via (v2vTable T l down up) prevDown currDown dirX d := by
  rw [rpTable_query, c39_via2via_query]
  generalize (if prevDown then down else up) = o1 at h ⊢
  generalize (if currDown then down else up) = o2 at h ⊢
  have e : rpRanges T P l o1 o2 dirX = v2vRanges T l o1 o2 dirX := by
    unfold rpRanges
    cases o1 with
    | none => simp
    | some a =>
      cases o2 with
      | none => simp
      | some b =>
        have : rpCornerRanges P l a b dirX = [] := by
          unfold rpCornerRanges
          split
          · rfl
          · split
            · rfl
            · rename_i h2
              split
              · rfl
              · rename_i h3
                rcases h with h | h | h
                · exact absurd (.inr h) h2
                · exact absurd (h a b rfl rfl) h3
                · have z : ∀ v : RVia, (some a = some v ∨ some b = some v) →
                      rpCornerVia P l (a.boxOn l) (b.boxOn l) v = [] := by
                    intro v hv
                    unfold rpCornerVia
                    rw [List.map_eq_nil_iff, List.filter_eq_nil_iff]
                    intro r hr hc
                    refine h v hv r ?_ (by simpa using hc)
                    cases hg : P.general v.cut with
                    | nil =>
                      simp [hg] at hr
                      exact .inr ⟨hg, hr⟩
                    | cons x t =>
                      simp only [hg] at hr
                      exact .inl (by rw [hg]; simpa using hr)
                  rw [z a (.inl rfl), z b (.inr rfl)]
                  rfl
        simp [this]
  rw [e]

/-- A wire may not run through the via below or above just if the layer is the one of the process
and the via has the name that is built in, whatever the direction of the wire and whatever the
process. -/
theorem c208_through (l : Int) (below above : Option String) (isDown dirX : Bool) :
    isViaThrough (rpThroughTable l below above) isDown dirX = some true ↔
      l = 10 ∧ (if isDown then below else above) = some "CK_23_28_0_26_VH_CK" := by
  have e : isViaThrough (rpThroughTable l below above) isDown dirX =
      some (rpThrough l (if isDown then below else above)) := by
    cases isDown <;> cases dirX <;> rfl
  rw [e]
  cases (if isDown then below else above : Option String) with
  | none => simp [rpThrough]
  | some n => simp [rpThrough]

/-! Vias below and above layer 10 with metal of heights 60 and 100, cuts of height 40, and a rule
of 30 to concave corners: lengths 1 to 79 are forbidden by it. -/
def rpExDown : RVia := ⟨8, 10, 9, ⟨⟨-30, -30⟩, ⟨30, 30⟩⟩, ⟨⟨-30, -30⟩, ⟨30, 30⟩⟩, ⟨⟨-20, -20⟩, ⟨20, 20⟩⟩⟩
def rpExUp : RVia := ⟨10, 12, 11, ⟨⟨-50, -50⟩, ⟨50, 50⟩⟩, ⟨⟨-50, -50⟩, ⟨50, 50⟩⟩, ⟨⟨-20, -20⟩, ⟨20, 20⟩⟩⟩
def rpExNode : RpNode :=
  ⟨rpGf14, fun _ => [], fun c => if c = 11 then [⟨10, true, 30⟩] else []⟩

example : rpCornerRanges rpExNode 10 rpExDown rpExUp false = [(0, 80)] := by decide
example : rpExNode.Applies rpExUp.cut ⟨10, true, 30⟩ := .inr ⟨rfl, by decide⟩
example : (rpExDown.boxOn 10).Centred ∧ (rpExUp.boxOn 10).Centred ∧ rpExUp.cutBox.Centred ∧
    cornerGap rpExUp.cutBox.top (min (rpExDown.boxOn 10).top (rpExUp.boxOn 10).top) 79 < 30 := by
  unfold Box.Centred; decide
example : isViaThrough (rpThroughTable 10 (some "CK_23_28_0_26_VH_CK") none) true false = some true := by
  decide

end TR
