import Verif.Echo.DefsSpec
import Verif.Echo.NdrProps

/-!
# C196, C197, C198: property definitions, groups and the first statements
-/

namespace TR

theorem readOwner_kw (o : EhOwner) : ehReadOwner o.kw = some o := by cases o <;> rfl

/-- what the text of a definition says: numbers with six digits, no empty text -/
def EhPdVal.echoed : EhPdVal → EhPdVal
  | .int r n => .int (r.map fun r => (ehG r.1, ehG r.2)) (n.map ehG)
  | .real r n => .real (r.map fun r => (ehG r.1, ehG r.2)) (n.map ehG)
  | .qstr s => if s = "" then .str else .qstr s
  | v => v

theorem readNums (r : Option (Int × Int)) (n : Option Int) :
    ehReadNums (ehPdNums r n ++ [.semi]) = some (r.map fun r => (ehG r.1, ehG r.2), n.map ehG) := by
  cases r <;> cases n <;> rfl

open Classical in
/-- C196: the text of a property definition is read as the same definition, numbers with the six digits that are
printed, unless it is a name map string, which is refused. -/
theorem c196_definition_partial (p : EhPd) : ehReadPd (ehPd p) =
    if ∃ s, p.val = .nmap s then none else some { p with val := p.val.echoed } := by
  obtain ⟨o, n, v⟩ := p
  have e : ehReadPd (ehPd ⟨o, n, v⟩) = (ehReadPdVal (ehPdVal v ++ [.semi])).map fun v => ⟨o, n, v⟩ := by
    simp only [ehPd, List.cons_append, List.nil_append, ehReadPd, readOwner_kw, Option.bind_some]
  rw [e]
  cases v with
  | int r k =>
      rw [if_neg (by rintro ⟨s, h⟩; cases h)]
      simp only [ehPdVal, List.cons_append, ehReadPdVal, readNums, Option.map_some, EhPdVal.echoed]
  | real r k =>
      rw [if_neg (by rintro ⟨s, h⟩; cases h)]
      simp only [ehPdVal, List.cons_append, ehReadPdVal, readNums, Option.map_some, EhPdVal.echoed]
  | str => rw [if_neg (by rintro ⟨s, h⟩; cases h)]; rfl
  | qstr s =>
      rw [if_neg (by rintro ⟨s, h⟩; cases h)]
      by_cases hs : s = ""
      · simp [ehPdVal, ehPdText, hs, ehReadPdVal, EhPdVal.echoed]
      · simp [ehPdVal, ehPdText, hs, ehReadPdVal, EhPdVal.echoed]
  | nmap s =>
      rw [if_pos ⟨s, rfl⟩]
      by_cases hs : s = "" <;> simp [ehPdVal, ehPdText, hs, ehReadPdVal]

/-- C196: a definition comes back exactly as it was if and only if it is no name map string, its numbers have six digits
and its text is not empty. -/
theorem c196_exact (p : EhPd) : ehReadPd (ehPd p) = some p ↔ match p.val with
    | .int r n | .real r n => (∀ x ∈ r, ehG x.1 = x.1 ∧ ehG x.2 = x.2) ∧ ∀ v ∈ n, ehG v = v
    | .str => True
    | .qstr s => s ≠ ""
    | .nmap _ => False := by
  classical
  rw [c196_definition_partial]
  obtain ⟨o, n, v⟩ := p
  cases v with
  | int r k => cases r <;> cases k <;> simp [EhPdVal.echoed, Prod.ext_iff]
  | real r k => cases r <;> cases k <;> simp [EhPdVal.echoed, Prod.ext_iff]
  | str => simp [EhPdVal.echoed]
  | qstr s => by_cases hs : s = "" <;> simp [EhPdVal.echoed, hs]
  | nmap s => simp

/-- C196: the types of all properties are the same in the written file as in the reference file, if all definitions can
be read and none has an empty text: so the properties of the sections are read with the same types. -/
theorem c196_types (ds qs : List EhPd) (h : ds.mapM (fun d => ehReadPd (ehPd d)) = some qs) (he : ∀ d ∈ ds, d.val ≠ .qstr "")
    (o : EhOwner) (n : String) : ehTypeOf qs o n = ehTypeOf ds o n := by
  classical
  induction ds generalizing qs with
  | nil => simp at h; subst h; rfl
  | cons d ds ih =>
      rw [List.mapM_cons] at h
      cases hd : ehReadPd (ehPd d) with
      | none => rw [hd] at h; simp at h
      | some q =>
          rw [hd] at h
          cases hm : ds.mapM (fun d => ehReadPd (ehPd d)) with
          | none => rw [hm] at h; simp at h
          | some rs =>
              rw [hm] at h
              simp at h
              subst h
              have ih := ih rs hm (fun e hm => he e (by simp [hm]))
              rw [c196_definition_partial] at hd
              split at hd
              · cases hd
              · simp only [Option.some.injEq] at hd
                subst hd
                have ht : d.val.echoed.type = d.val.type := by
                  have := he d (by simp)
                  cases hv : d.val <;> simp_all [EhPdVal.echoed, EhPdVal.type]
                unfold ehTypeOf at ih ⊢
                simp only [List.find?_cons]
                cases hx : decide (d.owner = o ∧ d.name = n) with
                | true => simp [ht]
                | false => exact ih

/-- C196 fails: an empty text makes a property of quoted strings one of plain strings. -/
theorem c196_empty (o : EhOwner) (n : String) : ehReadPd (ehPd ⟨o, n, .qstr ""⟩) = some ⟨o, n, .str⟩ := by
  cases o <;> rfl

example : ehReadPd (ehPd ⟨.net, "slack", .real (some (-5, 1000)) (some 12)⟩) = some ⟨.net, "slack", .real (some (-5, 1000)) (some 12)⟩ := by
  decide +kernel

/-! ## Groups -/

/-- the rectangles of the region of a group -/
def groupBoxes (g : EhGroup) : List EhTok :=
  g.boxes.flatMap (fun b => [.kw .region, .num b.1, .num b.2.1, .num b.2.2.1, .num b.2.2.2])

/-- the sizes of a group, if there are any -/
def groupSoft (g : EhGroup) : List (List EhTok) :=
  if g.maxX.isSome ∨ g.maxY.isSome ∨ g.perim.isSome then
    [.kw .soft :: (g.perim.toList.flatMap (fun v => [.kw .maxhalf, .num v])
      ++ g.maxX.toList.flatMap (fun v => [.kw .maxx, .num v]) ++ g.maxY.toList.flatMap (fun v => [.kw .maxy, .num v]))]
  else []

theorem groupSoft_text (g : EhGroup) : ehGroupSoft g = (groupSoft g).flatMap (fun o => .plus :: o) := by
  unfold ehGroupSoft groupSoft
  split <;> simp

theorem groupBoxes_plain (g : EhGroup) : ∀ t ∈ groupBoxes g, EhPlainTok t := by
  intro t ht
  simp only [groupBoxes, List.mem_flatMap] at ht
  obtain ⟨b, _, hb⟩ := ht
  simp at hb
  rcases hb with h | h | h | h | h <;> subst h <;> simp [EhPlainTok]

theorem groupSoft_plain (g : EhGroup) : ∀ o ∈ groupSoft g, ∀ t ∈ o, EhPlainTok t := by
  intro o ho t ht
  unfold groupSoft at ho
  split at ho
  · simp only [List.mem_singleton] at ho
    subst ho
    simp only [List.mem_cons, List.mem_append, List.mem_flatMap] at ht
    rcases ht with ht | (⟨v, _, ht⟩ | ⟨v, _, ht⟩) | ⟨v, _, ht⟩
    · subst ht; simp [EhPlainTok]
    all_goals
      simp at ht
      rcases ht with ht | ht <;> subst ht <;> simp [EhPlainTok]
  · cases ho

theorem groupHead_plain (g : EhGroup) : ∀ t ∈ EhTok.minus :: .word g.name :: g.members.map .word, EhPlainTok t := by
  intro t ht
  simp at ht
  rcases ht with h | h | ⟨a, _, h⟩ <;> subst h <;> simp [EhPlainTok]

theorem props_plain (ps : List (String × EhVal × EhPT)) : ∀ o ∈ ps.map ehTyped, ∀ t ∈ o, EhPlainTok t := by
  intro o ho
  obtain ⟨p, _, rfl⟩ := List.mem_map.1 ho
  exact typed_plain p

theorem group_split_region (g : EhGroup) (r : String) (hr : g.region = some r) : ehSplit (ehGroup g) =
    some (.minus :: .word g.name :: g.members.map .word,
      groupSoft g ++ [[.kw .region, .word r] ++ groupBoxes g] ++ g.props.map ehTyped) := by
  rw [← ehSplit_stmt _ _ (groupHead_plain g)]
  · congr 1
    unfold ehGroup
    rw [groupSoft_text, hr]
    simp only [List.flatMap_append, flatMap_map', List.append_assoc, groupBoxes]
    simp
  · intro o ho
    simp only [List.mem_append, List.mem_singleton] at ho
    rcases ho with (ho | ho) | ho
    · exact groupSoft_plain g o ho
    · subst ho
      intro t ht
      rcases List.mem_append.1 ht with ht | ht
      · simp at ht; rcases ht with h | h <;> subst h <;> simp [EhPlainTok]
      · exact groupBoxes_plain g t ht
    · exact props_plain _ o ho

theorem group_split_soft (g : EhGroup) (s : List EhTok) (hr : g.region = none) (hs : groupSoft g = [s]) : ehSplit (ehGroup g) =
    some (.minus :: .word g.name :: g.members.map .word, (s ++ groupBoxes g) :: g.props.map ehTyped) := by
  rw [← ehSplit_stmt _ _ (groupHead_plain g)]
  · congr 1
    unfold ehGroup
    rw [groupSoft_text, hr, hs]
    simp only [List.flatMap_cons, flatMap_map', List.append_assoc, groupBoxes]
    simp
  · intro o ho
    rcases List.mem_cons.1 ho with ho | ho
    · subst ho
      intro t ht
      rcases List.mem_append.1 ht with ht | ht
      · exact groupSoft_plain g s (by simp [hs]) t ht
      · exact groupBoxes_plain g t ht
    · exact props_plain _ o ho

theorem group_split_plain (g : EhGroup) (hr : g.region = none) (hs : groupSoft g = []) : ehSplit (ehGroup g) =
    some (.minus :: .word g.name :: (g.members.map .word ++ groupBoxes g), g.props.map ehTyped) := by
  have := ehSplit_stmt ((.minus :: .word g.name :: g.members.map .word) ++ groupBoxes g) (g.props.map ehTyped) ?_ (props_plain _)
  · rw [show EhTok.minus :: .word g.name :: (g.members.map .word ++ groupBoxes g) =
      (.minus :: .word g.name :: g.members.map .word) ++ groupBoxes g from rfl, ← this]
    congr 1
    unfold ehGroup
    rw [groupSoft_text, hr, hs]
    simp only [flatMap_map', List.append_assoc, groupBoxes]
    simp
  · intro t ht
    rcases List.mem_append.1 ht with ht | ht
    · exact groupHead_plain g t ht
    · exact groupBoxes_plain g t ht

theorem groupProps_read (pt : String → Option EhPT) (g : EhGroup) (ps : List (String × EhVal × EhPT)) :
    (ps.map ehTyped).foldlM (ehGroupOpt false pt) g = if ps = [] then some g else none := by
  cases ps with
  | nil => rfl
  | cons p ps =>
      obtain ⟨n, v, k⟩ := p
      rw [if_neg (by simp), List.map_cons, List.foldlM_cons]
      have : ehGroupOpt false pt g (ehTyped (n, v, k)) = none := by
        cases v <;> simp [ehTyped, EhVal.tok, ehGroupOpt, ehPairs]
      rw [this]; rfl

theorem groupSoft_read (pt : String → Option EhPT) (g h : EhGroup) (B : List EhTok) (s : List EhTok) (hs : groupSoft g = [s]) :
    ehGroupOpt false pt h (s ++ B) = ehSoftIn false h B := by
  unfold groupSoft at hs
  split at hs
  · simp only [List.cons.injEq, and_true] at hs
    subst hs
    rcases g with ⟨_, _, p, x, y, _, _, _⟩
    cases p <;> cases x <;> cases y <;> simp [ehGroupOpt, ehSoftIn]
  · cases hs

theorem names_words (ms : List String) : (ms.map EhTok.word).map ehAsName = ms := by
  induction ms with
  | nil => rfl
  | cons a ms ih => rw [List.map_cons, List.map_cons, ih]; rfl

/-- a group as version 5.8 sees it: without sizes and rectangles -/
def EhGroup.echoed (g : EhGroup) : EhGroup :=
  { name := g.name, members := g.members, region := g.region, props := g.props }

/-- C197: a group without rectangles is read with its members and region but without sizes, if it has no properties;
else it is refused. -/
theorem c197_group_partial (pt : String → Option EhPT) (g : EhGroup) (hb : g.boxes = []) :
    ehReadGroup false pt (ehGroup g) = if g.props = [] then some g.echoed else none := by
  have hB : groupBoxes g = [] := by simp [groupBoxes, hb]
  unfold ehReadGroup
  cases hr : g.region with
  | some r =>
      rw [group_split_region g r hr, hB]
      simp only [Option.bind_some, names_words, List.append_nil, List.foldlM_append]
      have h1 : (groupSoft g).foldlM (ehGroupOpt false pt) { name := g.name, members := g.members } =
          some { name := g.name, members := g.members } := by
        cases hs : groupSoft g with
        | nil => rfl
        | cons s ss =>
            have : ss = [] := by
              unfold groupSoft at hs
              split at hs
              · simp at hs; exact hs.2
              · cases hs
            subst this
            have := groupSoft_read pt g { name := g.name, members := g.members } [] s hs
            rw [List.append_nil] at this
            simp [this, ehSoftIn]
      rw [h1]
      simp [ehGroupOpt, groupProps_read]
      split
      · next h => simp [EhGroup.echoed, hr, h]
      · rfl
  | none =>
      cases hs : groupSoft g with
      | nil =>
          rw [group_split_plain g hr hs, hB]
          simp only [Option.bind_some, names_words, List.append_nil, groupProps_read]
          split
          · next h => simp [EhGroup.echoed, hr, h]
          · rfl
      | cons s ss =>
          have : ss = [] := by
            unfold groupSoft at hs
            split at hs
            · simp at hs; exact hs.2
            · cases hs
          subst this
          rw [group_split_soft g s hr hs, hB]
          have h1 := groupSoft_read pt g { name := g.name, members := g.members } [] s hs
          simp only [Option.bind_some, names_words, List.foldlM_cons, h1, ehSoftIn]
          simp [groupProps_read]
          split
          · next h => simp [EhGroup.echoed, hr, h]
          · rfl

/-- C197: every group that a reference file of version 5.5 or later can have comes back exactly if it has no
properties. -/
theorem c197_same (pt : String → Option EhPT) (g : EhGroup) (hb : g.boxes = []) (h1 : g.perim = none) (h2 : g.maxX = none)
    (h3 : g.maxY = none) : ehReadGroup false pt (ehGroup g) = if g.props = [] then some g else none := by
  rw [c197_group_partial pt g hb]
  split
  · obtain ⟨n, ms, p, x, y, r, b, ps⟩ := g
    simp only at hb h1 h2 h3
    subst hb h1 h2 h3
    rfl
  · rfl

/-- C197 fails: the rectangles of a group that has nothing else are read as names of members. -/
theorem c197_boxes (pt : String → Option EhPT) (n : String) (ms : List String) (a b c d : Int) :
    ehReadGroup false pt (ehGroup { name := n, members := ms, boxes := [(a, b, c, d)] }) =
      some { name := n, members := ms ++ ["REGION", toString a, toString b, toString c, toString d] } := by
  unfold ehReadGroup
  rw [group_split_plain _ rfl (by simp [groupSoft])]
  simp only [Option.bind_some, List.map_append, names_words, groupBoxes]
  rfl

/-- C197 fails: with a region's name or sizes before the rectangles the text is refused. -/
theorem c197_refused (pt : String → Option EhPT) (g : EhGroup) (hb : g.boxes ≠ [])
    (h : g.region ≠ none ∨ g.maxX ≠ none ∨ g.maxY ≠ none ∨ g.perim ≠ none) : ehReadGroup false pt (ehGroup g) = none := by
  obtain ⟨b, bs, hbs⟩ := List.exists_cons_of_ne_nil hb
  have hB : ∃ B, groupBoxes g = .kw .region :: .num b.1 :: B := by
    unfold groupBoxes
    rw [hbs]
    exact ⟨_, rfl⟩
  obtain ⟨B, hB⟩ := hB
  unfold ehReadGroup
  cases hr : g.region with
  | some r =>
      rw [group_split_region g r hr, hB]
      simp only [Option.bind_some, List.foldlM_append]
      cases (groupSoft g).foldlM (ehGroupOpt false pt) { name := g.name, members := (g.members.map .word).map ehAsName } with
      | none => rfl
      | some q => simp [ehGroupOpt]
  | none =>
      cases hs : groupSoft g with
      | nil =>
          exfalso
          unfold groupSoft at hs
          split at hs
          · cases hs
          · next hn =>
            apply hn
            rcases h with h | h | h | h
            · exact absurd hr h
            · exact .inl (Option.isSome_iff_ne_none.2 h)
            · exact .inr (.inl (Option.isSome_iff_ne_none.2 h))
            · exact .inr (.inr (Option.isSome_iff_ne_none.2 h))
      | cons s ss =>
          have : ss = [] := by
            unfold groupSoft at hs
            split at hs
            · simp at hs; exact hs.2
            · cases hs
          subst this
          rw [group_split_soft g s hr hs, hB]
          have h1 := groupSoft_read pt g { name := g.name, members := (g.members.map .word).map ehAsName } (.kw .region :: .num b.1 :: B) s hs
          simp only [Option.bind_some, List.foldlM_cons, h1, ehSoftIn]
          rfl

/-- a group of version 5.4 with a size -/
example : ehReadGroup true (fun _ => none) (ehGroup { name := "g", members := ["u1", "u*"], maxX := some 500, region := some "r" }) =
      some { name := "g", members := ["u1", "u*"], maxX := some 500, region := some "r" } ∧
    ehReadGroup false (fun _ => none) (ehGroup { name := "g", members := ["u1", "u*"], maxX := some 500, region := some "r" }) =
      some { name := "g", members := ["u1", "u*"], region := some "r" } := by decide +kernel

/-! ## The first statements -/

/-- C198: names mean in the written file what they mean in the reference file, exactly if the reference file is not of a
version before 5.6 with case insensitive names: then the written file is refused. -/
theorem c198_case_partial (h : EhHead) : (ehReadHead (ehHead h)).map (·.2) = if h.sensitive then some h.sensitive else none := by
  obtain ⟨v, s⟩ := h
  cases v with
  | none => cases s <;> simp [ehHead, ehReadHead, ehSensIn, EhHead.vers, EhHead.sensitive]
  | some v =>
      by_cases hv : v < 56
      · rcases s with _ | _ | _ <;> simp [ehHead, ehReadHead, ehSensIn, EhHead.vers, EhHead.sensitive, hv]
      · rcases s with _ | _ | _ <;> simp [ehHead, ehReadHead, ehSensIn, EhHead.vers, EhHead.sensitive, hv]

/-- C198: the version that the written file says is 5.8 if the reference file says one. -/
theorem c198_version (h : EhHead) (v : Nat) (hv : h.version = some v) (q : Nat × Bool) (hq : ehReadHead (ehHead h) = some q) :
    q.1 = 58 := by
  obtain ⟨w, s⟩ := h
  simp only at hv
  subst hv
  simp only [ehHead, Option.toList_some, List.flatMap_cons, List.flatMap_nil, List.append_nil, List.cons_append, List.nil_append,
    ehReadHead] at hq
  rw [if_neg (by decide)] at hq
  cases hs : ehSensIn (58 : Int).toNat (if (EhHead.mk (some v) s).vers < 56 then
    s.toList.flatMap (fun b => [.kw .casesens, .kw (if b then .on else .off), .semi]) else []) with
  | none => rw [hs] at hq; cases hq
  | some b => rw [hs] at hq; simp at hq; rw [← hq]

/-- C198 fails: a file of version 5.4 with case insensitive names is accepted as input, what is written is not. -/
theorem c198_off : ehReadHead [.kw .version, .num 54, .semi, .kw .casesens, .kw .off, .semi] = some (54, false) ∧
    ehReadHead (ehHead ⟨some 54, some false⟩) = none := by decide +kernel

end TR
