import Verif.Echo.DocSpec
import Verif.Echo.FileProps

/-!
# C199: the complete file
-/

namespace TR

/-- the place of a reader of parts -/
def ehAtOf : Option (EhSecKind × Int × List EhStmt) → EhAt
  | none => .top
  | some (k, d, ss) => .sec k d ss

theorem docIn_tok (D : List EhPd) (a : EhAt) (acc : List EhTok) (t : EhTok) (ht : t ≠ .semi) (r : List EhDWord) :
    ehDocIn D a acc (.w (.tok t) :: r) = ehDocIn D a (acc ++ [t]) r := by
  cases a <;> cases acc <;> cases t <;> first | exact absurd rfl ht | (simp [ehDocIn])

theorem fileIn_tok (pt : EhSecKind → String → Option EhPT) (pr : String → Option EhPT) (cur : Option (EhSecKind × Int × List EhStmt))
    (acc : List EhTok) (t : EhTok) (ht : t ≠ .semi) (r : List EhWord) :
    ehFileIn pt pr cur acc (.tok t :: r) = ehFileIn pt pr cur (acc ++ [t]) r := by
  cases cur <;> cases acc <;> cases t <;> first | exact absurd rfl ht | (simp [ehFileIn])

/-- what may follow parts: property definitions or the end -/
def EhAfter (r : List EhDWord) : Prop := r = [.enddesign] ∨ ∃ s, r = .props :: s

/-- parts are read in a complete file as they are alone, with the types of the definitions so far -/
theorem docIn_file (D : List EhPd) (r : List EhDWord) (hr : EhAfter r) : ∀ (m : Nat) (ws : List EhWord), ws.length ≤ m →
    ∀ (cur : Option (EhSecKind × Int × List EhStmt)) (acc : List EhTok),
    ehDocIn D (ehAtOf cur) acc (ws.map .w ++ r) =
      (ehFileIn (ehTypesIn D) (ehTypeOf D .row) cur acc ws).bind fun ps => (ehDocIn D .top [] r).map (ps.map .part ++ ·) := by
  intro m
  induction m with
  | zero =>
      intro ws hw cur acc
      have : ws = [] := List.eq_nil_of_length_eq_zero (by omega)
      subst this
      rcases cur with _ | ⟨k, d, ss⟩ <;> rcases acc with _ | ⟨t, acc⟩
      · simp [ehFileIn, ehAtOf]
      · rcases hr with rfl | ⟨s, rfl⟩ <;> simp [ehFileIn, ehAtOf, ehDocIn]
      · rcases hr with rfl | ⟨s, rfl⟩ <;> simp [ehFileIn, ehAtOf, ehDocIn]
      · rcases hr with rfl | ⟨s, rfl⟩ <;> simp [ehFileIn, ehAtOf, ehDocIn]
  | succ m ih =>
      intro ws hw cur acc
      rcases ws with _ | ⟨x, ws⟩
      · exact ih [] (by simp) cur acc
      replace hw : ws.length ≤ m := by simpa using hw
      cases x with
      | tok t =>
          by_cases ht : t = .semi
          · subst ht
            rcases cur with _ | ⟨k, d, ss⟩
            · have e1 : ehDocIn D (ehAtOf none) acc ((EhWord.tok .semi :: ws).map .w ++ r) =
                  (ehReadOne (ehTypeOf D .row) (acc ++ [.semi])).bind fun o =>
                    (ehDocIn D .top [] (ws.map .w ++ r)).map (.part (.one o) :: ·) := by
                cases acc <;> simp [ehAtOf, ehDocIn]
              have e2 : ehFileIn (ehTypesIn D) (ehTypeOf D .row) none acc (EhWord.tok .semi :: ws) =
                  (ehReadOne (ehTypeOf D .row) (acc ++ [.semi])).bind fun o =>
                    (ehFileIn (ehTypesIn D) (ehTypeOf D .row) none [] ws).map (.one o :: ·) := by
                cases acc <;> simp [ehFileIn]
              rw [e1, e2]
              have ih := ih ws hw none []
              rw [show ehAtOf none = EhAt.top from rfl] at ih
              rw [ih]
              cases ehReadOne (ehTypeOf D .row) (acc ++ [.semi]) with
              | none => rfl
              | some o =>
                  cases ehFileIn (ehTypesIn D) (ehTypeOf D .row) none [] ws with
                  | none => rfl
                  | some ps => cases h : ehDocIn D .top [] r <;> simp
            · have e1 : ehDocIn D (ehAtOf (some (k, d, ss))) acc ((EhWord.tok .semi :: ws).map .w ++ r) =
                  (ehReadStmt (ehTypesIn D) k (acc ++ [.semi])).bind fun s =>
                    ehDocIn D (ehAtOf (some (k, d, ss ++ [s]))) [] (ws.map .w ++ r) := by
                cases acc <;> simp [ehAtOf, ehDocIn]
              have e2 : ehFileIn (ehTypesIn D) (ehTypeOf D .row) (some (k, d, ss)) acc (EhWord.tok .semi :: ws) =
                  (ehReadStmt (ehTypesIn D) k (acc ++ [.semi])).bind fun s =>
                    ehFileIn (ehTypesIn D) (ehTypeOf D .row) (some (k, d, ss ++ [s])) [] ws := by
                cases acc <;> simp [ehFileIn]
              rw [e1, e2]
              cases ehReadStmt (ehTypesIn D) k (acc ++ [.semi]) with
              | none => rfl
              | some s => exact ih ws hw _ _
          · rw [List.map_cons, List.cons_append, docIn_tok D _ acc t ht, fileIn_tok _ _ cur acc t ht]
            exact ih ws hw cur _
      | fin k' =>
          rcases cur with _ | ⟨k, d, ss⟩
          · cases acc <;> simp [ehAtOf, ehDocIn, ehFileIn]
          · rcases acc with _ | ⟨t, acc⟩
            · have ih := ih ws hw none []
              rw [show ehAtOf none = EhAt.top from rfl] at ih
              simp only [ehAtOf, List.map_cons, List.cons_append, ehDocIn, ehFileIn]
              split
              · rw [ih]
                cases ehFileIn (ehTypesIn D) (ehTypeOf D .row) none [] ws with
                | none => rfl
                | some ps => cases h : ehDocIn D .top [] r <;> simp
              · rfl
            · simp [ehAtOf, ehDocIn, ehFileIn]
      | head k =>
          rcases cur with _ | ⟨k', d, ss⟩
          · rcases acc with _ | ⟨t, acc⟩
            · match ws, hw with
              | [], _ => rcases hr with rfl | ⟨s, rfl⟩ <;> simp [ehFileIn, ehAtOf, ehDocIn]
              | [x], _ =>
                  rcases hr with rfl | ⟨s, rfl⟩ <;> rcases x with _ | _ | x <;> try (simp [ehFileIn, ehAtOf, ehDocIn]; done)
                  all_goals cases x <;> simp [ehFileIn, ehAtOf, ehDocIn]
              | x :: y :: ws, hw =>
                  by_cases hx : ∃ d, x = .tok (.num d) ∧ y = .tok .semi
                  · obtain ⟨d, rfl, rfl⟩ := hx
                    exact ih ws (by simp at hw; omega) (some (k, d, [])) []
                  · have h1 : ehDocIn D (ehAtOf none) [] ((EhWord.head k :: x :: y :: ws).map .w ++ r) = none := by
                      rcases x with _ | _ | x <;> try (simp [ehAtOf, ehDocIn]; done)
                      cases x <;> try (simp [ehAtOf, ehDocIn]; done)
                      rcases y with _ | _ | y <;> try (simp [ehAtOf, ehDocIn]; done)
                      cases y <;> try (simp [ehAtOf, ehDocIn]; done)
                      exact absurd ⟨_, rfl, rfl⟩ hx
                    have h2 : ehFileIn (ehTypesIn D) (ehTypeOf D .row) none [] (EhWord.head k :: x :: y :: ws) = none := by
                      rcases x with _ | _ | x <;> try (simp [ehFileIn]; done)
                      cases x <;> try (simp [ehFileIn]; done)
                      rcases y with _ | _ | y <;> try (simp [ehFileIn]; done)
                      cases y <;> try (simp [ehFileIn]; done)
                      exact absurd ⟨_, rfl, rfl⟩ hx
                    rw [h1, h2]; rfl
            · simp [ehAtOf, ehDocIn, ehFileIn]
          · cases acc <;> simp [ehAtOf, ehDocIn, ehFileIn]

/-! ## Property definitions -/

theorem docIn_take (D es : List EhPd) : ∀ (b acc : List EhTok) (r : List EhDWord), .semi ∉ b →
    ehDocIn D (.defs es) acc (b.map (fun t => .w (.tok t)) ++ r) = ehDocIn D (.defs es) (acc ++ b) r := by
  intro b
  induction b with
  | nil => intro acc r _; simp
  | cons t b ih =>
      intro acc r h
      rw [List.map_cons, List.cons_append, docIn_tok D _ acc t (fun e => h (by simp [e])), ih _ _ (fun e => h (by simp [e]))]
      simp

theorem pd_ends (p : EhPd) : EhEnds (ehPd p) := by
  refine ⟨[.kw p.owner.kw, .word p.name] ++ ehPdVal p.val, rfl, nosemi_append (by simp) ?_⟩
  cases p.val with
  | int r n => cases r <;> cases n <;> simp [ehPdVal, ehPdNums]
  | real r n => cases r <;> cases n <;> simp [ehPdVal, ehPdNums]
  | str => simp [ehPdVal]
  | qstr s => by_cases hs : s = "" <;> simp [ehPdVal, ehPdText, hs]
  | nmap s => by_cases hs : s = "" <;> simp [ehPdVal, ehPdText, hs]

/-- the definition that is read -/
def EhPd.echoed (p : EhPd) : EhPd := { p with val := p.val.echoed }

open Classical in
theorem docIn_defs (r : List EhDWord) (ds : List EhPd) : ∀ (D es : List EhPd),
    ehDocIn D (.defs es) [] ((ds.flatMap ehPd).map (fun t => .w (.tok t)) ++ (.endprops :: r)) =
      if ∀ p ∈ ds, ¬ ∃ s, p.val = .nmap s then
        (ehDocIn (D ++ ds.map EhPd.echoed) .top [] r).map (.defs (es ++ ds.map EhPd.echoed) :: ·) else none := by
  induction ds with
  | nil => intro D es; simp [ehDocIn]
  | cons p ds ih =>
      intro D es
      obtain ⟨b, hb, hs⟩ := pd_ends p
      rw [List.flatMap_cons, List.map_append, List.append_assoc]
      have e : ∀ r, ehDocIn D (.defs es) [] ((ehPd p).map (fun t => .w (.tok t)) ++ r) =
          (ehReadPd (ehPd p)).bind fun p => ehDocIn (D ++ [p]) (.defs (es ++ [p])) [] r := by
        intro r
        rw [hb, List.map_append, List.append_assoc, docIn_take D es b [] _ hs, List.nil_append]
        cases b <;> simp [ehDocIn]
      rw [e, c196_definition_partial]
      by_cases hp : ∃ s, p.val = .nmap s
      · rw [if_pos hp, if_neg (fun h => h p (by simp) hp)]; rfl
      · rw [if_neg hp, Option.bind_some, ih]
        by_cases hd : ∀ q ∈ ds, ¬ ∃ s, q.val = .nmap s
        · rw [if_pos hd, if_pos (by
            intro q hq
            rcases List.mem_cons.1 hq with rfl | hq
            · exact hp
            · exact hd q hq)]
          simp [EhPd.echoed]
        · rw [if_neg hd, if_neg (fun h => hd (fun q hq => h q (by simp [hq])))]

theorem types_echoed (D : List EhPd) (h : ∀ p ∈ D, p.val ≠ .qstr "") (o : EhOwner) (n : String) :
    ehTypeOf (D.map EhPd.echoed) o n = ehTypeOf D o n := by
  induction D with
  | nil => rfl
  | cons d D ih =>
      have ih := ih (fun e hm => h e (by simp [hm]))
      have ht : d.val.echoed.type = d.val.type := by
        have := h d (by simp)
        cases hv : d.val <;> simp_all [EhPdVal.echoed, EhPdVal.type]
      unfold ehTypeOf at ih ⊢
      rw [List.map_cons, List.find?_cons, List.find?_cons]
      show Option.map _ (match decide (d.owner = o ∧ d.name = n) with | true => _ | false => _) = _
      cases hx : decide (d.owner = o ∧ d.name = n) with
      | true => simp [EhPd.echoed, ht]
      | false => exact ih

/-! ## The complete file -/

/-- what the library can deliver: parts whose properties have the types of the definitions before them (`D`), texts of
definitions that are not empty -/
def EhBlocksOk (last : List EhPart) : List EhPd → List (List EhPart × List EhPd) → Prop
  | D, [] => ∀ p ∈ last, p.Ok (ehTypesIn D)
  | D, (ps, ds) :: r => (∀ p ∈ ps, p.Ok (ehTypesIn D)) ∧ (∀ x ∈ ds, x.val ≠ .qstr "") ∧ EhBlocksOk last (D ++ ds) r

/-- the file that is read -/
def EhDoc.echoed (routes : String → List (List PathTok)) (d : EhDoc) : EhDoc :=
  { head := d.head
    blocks := d.blocks.map fun b => (b.1.map (EhPart.echoed routes), b.2.map EhPd.echoed)
    last := d.last.map (EhPart.echoed routes) }

/-- files of which every part is written as DEF -/
def EhDoc.Readable (d : EhDoc) : Prop :=
  d.head.sensitive = true ∧
  (∀ b ∈ d.blocks, (∀ p ∈ b.1, p.Fine ∧ p.Readable) ∧ ∀ x ∈ b.2, ¬ ∃ s, x.val = .nmap s) ∧
  ∀ p ∈ d.last, p.Fine ∧ p.Readable

theorem after_defs (ds : List EhPd) (r : List EhDWord) : EhAfter (ehDefs ds ++ r) := .inr ⟨_, rfl⟩

open Classical in
theorem docIn_parts (T : DefTech) (isTA : Bool) (nets : List ONet) (D : List EhPd) (hD : ∀ x ∈ D, x.val ≠ .qstr "") (n : Int)
    (ps : List EhPart) (hp : ∀ p ∈ ps, p.Ok (ehTypesIn D)) (r : List EhDWord) (hr : EhAfter r) :
    ehDocIn (D.map EhPd.echoed) .top [] ((ehFile (writeNet T isTA nets) n ps).map .w ++ r) =
      if ∀ p ∈ ps, p.Fine ∧ p.Readable then (ehDocIn (D.map EhPd.echoed) .top [] r).map
        ((ps.map (EhPart.echoed (writeNet T isTA nets))).map .part ++ ·) else none := by
  have h := docIn_file (D.map EhPd.echoed) r hr _ (ehFile (writeNet T isTA nets) n ps) (Nat.le_refl _) none []
  have ht : ehTypesIn (D.map EhPd.echoed) = ehTypesIn D := by
    funext k m
    unfold ehTypesIn
    cases k.owner with
    | none => rfl
    | some o => exact types_echoed D hD o m
  have hf := c195_file_partial T isTA nets (ehTypesIn D) (ehTypeOf (D.map EhPd.echoed) .row) n ps hp
  unfold ehReadFile at hf
  rw [show ehAtOf none = EhAt.top from rfl, ht, hf] at h
  rw [h]
  split <;> rfl

open Classical in
theorem blocks_read (T : DefTech) (isTA : Bool) (nets : List ONet) (last : List EhPart) (bs : List (List EhPart × List EhPd)) :
    ∀ (D : List EhPd) (_ : ∀ x ∈ D, x.val ≠ .qstr "") (n : Int) (_ : EhBlocksOk last D bs),
    ehDocIn (D.map EhPd.echoed) .top [] (ehBlocks (writeNet T isTA nets) last n bs) =
      if (∀ b ∈ bs, (∀ p ∈ b.1, p.Fine ∧ p.Readable) ∧ ∀ x ∈ b.2, ¬ ∃ s, x.val = .nmap s) ∧ ∀ p ∈ last, p.Fine ∧ p.Readable then
        some (bs.flatMap (fun b => (b.1.map (EhPart.echoed (writeNet T isTA nets))).map .part ++ [.defs (b.2.map EhPd.echoed)])
          ++ (last.map (EhPart.echoed (writeNet T isTA nets))).map .part) else none := by
  induction bs with
  | nil =>
      intro D hD n h
      rw [ehBlocks, docIn_parts T isTA nets D hD n last h _ (.inl rfl)]
      by_cases hl : ∀ p ∈ last, p.Fine ∧ p.Readable
      · rw [if_pos hl, if_pos ⟨by simp, hl⟩]; simp [ehDocIn]
      · rw [if_neg hl, if_neg (fun h => hl h.2)]
  | cons b bs ih =>
      intro D hD n h
      obtain ⟨ps, ds⟩ := b
      obtain ⟨h1, h2, h3⟩ := h
      have hD' : ∀ x ∈ D ++ ds, x.val ≠ .qstr "" := by
        intro x hx
        rcases List.mem_append.1 hx with hx | hx
        · exact hD x hx
        · exact h2 x hx
      rw [ehBlocks, docIn_parts T isTA nets D hD n ps h1 _ (after_defs _ _)]
      have e : ehDocIn (D.map EhPd.echoed) .top [] (ehDefs ds ++ ehBlocks (writeNet T isTA nets) last (ehLeft n (ps.flatMap EhPart.calls)) bs) =
          ehDocIn (D.map EhPd.echoed) (.defs []) [] ((ds.flatMap ehPd).map (fun t => .w (.tok t)) ++
            (.endprops :: ehBlocks (writeNet T isTA nets) last (ehLeft n (ps.flatMap EhPart.calls)) bs)) := by
        simp [ehDefs, ehDocIn]
      rw [e, docIn_defs, ← List.map_append, ih (D ++ ds) hD' _ h3]
      by_cases hp : ∀ p ∈ ps, p.Fine ∧ p.Readable
      · by_cases hd : ∀ x ∈ ds, ¬ ∃ s, x.val = .nmap s
        · rw [if_pos hp, if_pos hd]
          by_cases hr : (∀ b ∈ bs, (∀ p ∈ b.1, p.Fine ∧ p.Readable) ∧ ∀ x ∈ b.2, ¬ ∃ s, x.val = .nmap s) ∧ ∀ p ∈ last, p.Fine ∧ p.Readable
          · rw [if_pos hr, if_pos (by
              refine ⟨fun b hb => ?_, hr.2⟩
              rcases List.mem_cons.1 hb with rfl | hb
              · exact ⟨hp, hd⟩
              · exact hr.1 b hb)]
            simp
          · rw [if_neg hr, if_neg (fun h => hr ⟨fun b hb => h.1 b (by simp [hb]), h.2⟩)]; rfl
        · rw [if_pos hp, if_neg hd, if_neg (fun h => hd (h.1 (ps, ds) (by simp)).2)]; rfl
      · rw [if_neg hp, if_neg (fun h => hp (h.1 (ps, ds) (by simp)).1)]

/-- words that do not begin one of the first statements -/
def EhNoHead (l : List EhDWord) : Prop :=
  ∀ x r, l = x :: r → x ≠ .w (.tok (.kw .version)) ∧ x ≠ .w (.tok (.kw .casesens))

theorem file_noHead (routes : String → List (List PathTok)) (n : Int) (ps : List EhPart) (r : List EhDWord) (hr : EhAfter r) :
    EhNoHead ((ehFile routes n ps).map .w ++ r) := by
  intro x q h
  cases ps with
  | nil =>
      rcases hr with rfl | ⟨s, rfl⟩ <;> simp [ehFile, ehFileRun] at h <;> simp [← h.1]
  | cons p ps =>
      cases p with
      | sec k num ss => simp [ehFile, EhPart.calls, ehFileRun] at h; simp [← h.1]
      | one o =>
          cases o with
          | name k s => cases k <;> (simp [ehFile, EhPart.calls, ehFileRun, EhOne.text, EhNamed.kw] at h; simp [← h.1])
          | _ =>
            simp [ehFile, EhPart.calls, ehFileRun, EhOne.text, ehDie, ehTrack, ehRow, ehGcell] at h
            simp [← h.1]

theorem blocks_noHead (routes : String → List (List PathTok)) (last : List EhPart) (n : Int) (bs : List (List EhPart × List EhPd)) :
    EhNoHead (ehBlocks routes last n bs) := by
  cases bs with
  | nil => exact file_noHead routes n last _ (.inl rfl)
  | cons b bs => exact file_noHead routes n b.1 _ (.inr ⟨_, rfl⟩)

theorem takeVersion_none (l : List EhDWord) (h : EhNoHead l) : ehTakeVersion l = some (57, l) := by
  unfold ehTakeVersion
  split
  · next v r => exact absurd rfl (h _ _ rfl).1
  · rfl

theorem takeCase_none (v : Nat) (l : List EhDWord) (h : EhNoHead l) : ehTakeCase v l = some (true, l) := by
  unfold ehTakeCase
  split
  · next r => exact absurd rfl (h _ _ rfl).2
  · next r => exact absurd rfl (h _ _ rfl).2
  · rfl

theorem doc_head (h : EhHead) (l : List EhDWord) (hl : EhNoHead l) :
    ((ehTakeVersion ((ehHead h).map (fun t => .w (.tok t)) ++ l)).bind fun x => (ehTakeCase x.1 x.2)) =
      if h.sensitive then some (true, l) else none := by
  obtain ⟨v, s⟩ := h
  cases v with
  | none =>
      have : ehHead ⟨none, s⟩ = [] := by simp [ehHead, EhHead.vers]
      rw [this]
      simp [takeVersion_none l hl, takeCase_none 57 l hl, EhHead.sensitive, EhHead.vers]
  | some v =>
      by_cases hv : v < 56
      · rcases s with _ | _ | _
        · simp [ehHead, EhHead.vers, EhHead.sensitive, hv, ehTakeVersion, takeCase_none _ l hl]
        · simp [ehHead, EhHead.vers, EhHead.sensitive, hv, ehTakeVersion, ehTakeCase]
        · simp [ehHead, EhHead.vers, EhHead.sensitive, hv, ehTakeVersion, ehTakeCase]
      · rcases s with _ | _ | _ <;>
          simp [ehHead, EhHead.vers, EhHead.sensitive, hv, ehTakeVersion, takeCase_none _ l hl]

open Classical in
/-- C199: what is written for a complete reference file — the first statements, property definitions anywhere between
the other parts, names, units, rows, tracks and sections — is a DEF file exactly if names are case sensitive, no definition
is a name map string, and every part is written as DEF; it is then read as the same items in the same order. -/
theorem c199_doc_partial (T : DefTech) (isTA : Bool) (nets : List ONet) (n : Int) (d : EhDoc) (hd : EhBlocksOk d.last [] d.blocks) :
    ehReadDoc (ehDoc (writeNet T isTA nets) n d) =
      if d.Readable then some (true, (d.echoed (writeNet T isTA nets)).items) else none := by
  have hh := doc_head d.head _ (blocks_noHead (writeNet T isTA nets) d.last n d.blocks)
  have e : ehReadDoc (ehDoc (writeNet T isTA nets) n d) =
      ((ehTakeVersion ((ehHead d.head).map (fun t => .w (.tok t)) ++ ehBlocks (writeNet T isTA nets) d.last n d.blocks)).bind
        fun x => (ehTakeCase x.1 x.2)).bind fun x => (ehDocIn [] .top [] x.2).map fun is => (x.1, is) := by
    unfold ehReadDoc ehDoc
    cases ehTakeVersion ((ehHead d.head).map (fun t => .w (.tok t)) ++ ehBlocks (writeNet T isTA nets) d.last n d.blocks) <;> rfl
  rw [e, hh]
  have hb := blocks_read T isTA nets d.last d.blocks [] (by simp) n hd
  rw [List.map_nil] at hb
  by_cases hs : d.head.sensitive = true
  · rw [if_pos hs, Option.bind_some, hb]
    by_cases hr : (∀ b ∈ d.blocks, (∀ p ∈ b.1, p.Fine ∧ p.Readable) ∧ ∀ x ∈ b.2, ¬ ∃ s, x.val = .nmap s) ∧
        ∀ p ∈ d.last, p.Fine ∧ p.Readable
    · rw [if_pos hr, if_pos ⟨hs, hr⟩]
      simp only [Option.map_some, EhDoc.items, EhDoc.echoed, List.flatMap_map]
    · rw [if_neg hr, if_neg (fun h => hr h.2)]; rfl
  · rw [if_neg hs, if_neg (fun h => hs h.1)]; rfl

/-- C199: a name map string anywhere spoils the file. -/
theorem c199_namemap (T : DefTech) (isTA : Bool) (nets : List ONet) (n : Int) (d : EhDoc) (hd : EhBlocksOk d.last [] d.blocks)
    (b : List EhPart × List EhPd) (hb : b ∈ d.blocks) (x : EhPd) (hx : x ∈ b.2) (s : String) (hs : x.val = .nmap s) :
    ehReadDoc (ehDoc (writeNet T isTA nets) n d) = none := by
  classical
  rw [c199_doc_partial T isTA nets n d hd, if_neg]
  exact fun h => (h.2.1 b hb).2 x hx ⟨s, hs⟩

/-- C199: so does a reference file whose names are not case sensitive, whatever is in it. -/
theorem c199_insensitive (T : DefTech) (isTA : Bool) (nets : List ONet) (n : Int) (d : EhDoc) (hd : EhBlocksOk d.last [] d.blocks)
    (v : Nat) (hv : d.head.version = some v) (h56 : v < 56) (hs : d.head.sens = some false) :
    ehReadDoc (ehDoc (writeNet T isTA nets) n d) = none := by
  classical
  rw [c199_doc_partial T isTA nets n d hd, if_neg]
  intro h
  have := h.1
  simp [EhHead.sensitive, EhHead.vers, hv, h56, hs] at this

/-- a file with the first statements, names, definitions, and then rows, components and nets with a property -/
def exEhDoc : EhDoc :=
  { head := ⟨some 56, some false⟩
    blocks := [([.one (.name .design "top"), .one (.units 1000)], [⟨.net, "slack", .real none none⟩, ⟨.row, "r", .str⟩])]
    last := exEhFile ++ [.sec .nets 1 [.net { name := "n2", props := [("slack", .num 5, .r)] }]] }

example : ehReadDoc (ehDoc (fun _ => []) 3 exEhDoc) = some (true, exEhDoc.items) := by decide +kernel

example : EhBlocksOk exEhDoc.last [] exEhDoc.blocks := by
  refine ⟨by simp [EhPart.Ok, EhOne.Ok, ehUnitsOk], by simp, ?_⟩
  intro p hp
  simp only [exEhDoc, List.mem_append, List.mem_singleton] at hp
  rcases hp with hp | rfl
  · simp [exEhFile] at hp
    rcases hp with rfl | rfl | rfl | rfl | rfl | rfl | rfl | rfl | rfl <;>
      simp [EhPart.Ok, EhOne.Ok, EhStmt.Ok, EhStmt.kind, EhComp.Ok, EhPin.Ok, EhPlaceOk, ehUnitsOk]
    rintro _ _ _ _ rfl rfl rfl rfl
    simp
  · simp [EhPart.Ok, EhStmt.Ok, EhStmt.kind]
    rintro _ _ _ rfl rfl rfl
    decide

end TR
