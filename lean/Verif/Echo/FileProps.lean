import Verif.Echo.FileSpec
import Verif.Echo.SecProps
import Verif.Echo.GridProps
import Verif.Echo.DefsProps

/-!
# C195: the written file as a whole
-/

namespace TR

/-- all or nothing -/
def ehAll {α : Type} : List (Option α) → Option (List α)
  | [] => some []
  | x :: r => x.bind fun a => (ehAll r).map (a :: ·)

/-- a statement ends with `;` and has no other -/
def EhEnds (ts : List EhTok) : Prop := ∃ b, ts = b ++ [.semi] ∧ .semi ∉ b

section
variable (pt : EhSecKind → String → Option EhPT) (pr : String → Option EhPT)

theorem fileIn_take (cur : Option (EhSecKind × Int × List EhStmt)) : ∀ (b acc : List EhTok) (r : List EhWord), .semi ∉ b →
    ehFileIn pt pr cur acc (b.map .tok ++ r) = ehFileIn pt pr cur (acc ++ b) r
  | [], acc, r, _ => by simp
  | t :: b, acc, r, h => by
    have ht : t ≠ .semi := by intro e; apply h; simp [e]
    have hb : .semi ∉ b := by intro e; apply h; simp [e]
    rw [List.map_cons, List.cons_append]
    have : ehFileIn pt pr cur acc (.tok t :: (b.map .tok ++ r)) = ehFileIn pt pr cur (acc ++ [t]) (b.map .tok ++ r) := by
      rw [ehFileIn.eq_def]
      split <;> simp_all
    rw [this, fileIn_take cur b _ r hb]
    simp

theorem fileIn_one (ts : List EhTok) (h : EhEnds ts) (r : List EhWord) :
    ehFileIn pt pr none [] (ts.map .tok ++ r) = (ehReadOne pr ts).bind fun o => (ehFileIn pt pr none [] r).map (.one o :: ·) := by
  obtain ⟨b, rfl, hb⟩ := h
  rw [List.map_append, List.append_assoc, fileIn_take pt pr none b [] _ hb]
  simp only [List.nil_append, List.map_cons, List.map_nil, List.cons_append]
  rw [ehFileIn.eq_def]
  split <;> simp_all

theorem fileIn_stmt (k : EhSecKind) (d : Int) (ss : List EhStmt) (ts : List EhTok) (h : EhEnds ts) (r : List EhWord) :
    ehFileIn pt pr (some (k, d, ss)) [] (ts.map .tok ++ r) =
      (ehReadStmt pt k ts).bind fun s => ehFileIn pt pr (some (k, d, ss ++ [s])) [] r := by
  obtain ⟨b, rfl, hb⟩ := h
  rw [List.map_append, List.append_assoc, fileIn_take pt pr _ b [] _ hb]
  simp only [List.nil_append, List.map_cons, List.map_nil, List.cons_append]
  rw [ehFileIn.eq_def]
  split <;> simp_all

end

/-! ## The statements end with their `;` -/

theorem ends_split {ts : List EhTok} {p : List EhTok × List (List EhTok)} (h : ehSplit ts = some p) : EhEnds ts := by
  induction ts generalizing p with
  | nil => simp [ehSplit] at h
  | cons t r ih =>
      by_cases ht : t = .semi
      · subst ht
        rw [ehSplit] at h
        by_cases hr : r = []
        · subst hr; exact ⟨[], rfl, by simp⟩
        · rw [if_neg hr] at h; cases h
      · have : ∃ q, ehSplit r = some q := by
          cases hq : ehSplit r with
          | some q => exact ⟨q, rfl⟩
          | none => cases t <;> simp_all [ehSplit]
        obtain ⟨q, hq⟩ := this
        obtain ⟨b, rfl, hb⟩ := ih hq
        exact ⟨t :: b, rfl, by simp [hb, Ne.symm ht]⟩

theorem comp_ends (c : EhComp) : EhEnds (ehComp c) := by
  have : ∃ p, ehSplit (ehComp c) = some p := by
    rw [ehComp_eq]
    refine ⟨_, ehSplit_stmt _ _ ?_ (ehCompOpts_plain c)⟩
    intro t ht; simp at ht; rcases ht with h | h | h | ⟨a, -, h⟩ <;> subst h <;> simp [EhPlainTok]
  obtain ⟨p, hp⟩ := this
  exact ends_split hp

theorem via_ends (v : EhVia) : EhEnds (ehVia v) := ends_split (via_split v)

theorem ndr_ends (n : EhNdr) : EhEnds (ehNdr n) := by
  have := ehSplit_stmt [.minus, .word n.name] (ndrOpts n) (by simp [EhPlainTok]) (ndr_plain n)
  rw [← ndr_text] at this
  exact ends_split this

theorem reg_ends (r : EhReg) : EhEnds (ehReg r) := ends_split (reg_split r)

theorem group_ends (g : EhGroup) : EhEnds (ehGroup g) := by
  cases hr : g.region with
  | some r => exact ends_split (group_split_region g r hr)
  | none =>
      cases hs : groupSoft g with
      | nil => exact ends_split (group_split_plain g hr hs)
      | cons s ss =>
          have : ss = [] := by
            unfold groupSoft at hs
            split at hs
            · simp at hs; exact hs.2
            · cases hs
          subst this
          exact ends_split (group_split_soft g s hr hs)

theorem nosemi_append {a b : List EhTok} (ha : .semi ∉ a) (hb : .semi ∉ b) : .semi ∉ a ++ b := by
  simp [ha, hb]

theorem nosemi_flatMap {α : Type} {l : List α} {f : α → List EhTok} (h : ∀ x, .semi ∉ f x) : .semi ∉ l.flatMap f := by
  simp only [List.mem_flatMap, not_exists, not_and]
  intro x _; exact h x

theorem blk_ends (b : EhBlk) : EhEnds (ehBlk b) := by
  refine ⟨_, rfl, ?_⟩
  refine nosemi_append (nosemi_append ?_ (nosemi_flatMap fun r => by simp [ehBlkBox])) (nosemi_flatMap fun p => ?_)
  · cases b.layer with
    | some l =>
        dsimp only; unfold ehBlkLayer
        repeat' apply nosemi_append
        all_goals first | simp | (split <;> simp)
    | none =>
        dsimp only; unfold ehBlkPlace
        repeat' apply nosemi_append
        all_goals first | simp | (split <;> simp)
  · unfold ehBlkPoly; simp

theorem nosemi_ori (o : Int) : .semi ∉ [ehOri o] := by
  have := (ehOri_plain o).2
  simp [Ne.symm this]


theorem ne_volt (v : Int) : EhTok.semi ≠ ehVolt v := by unfold ehVolt; split <;> simp

theorem ne_sval (v : EhVal) : EhTok.semi ≠ ehSVal v := by cases v <;> simp [ehSVal]

theorem ne_tok (v : EhVal) : EhTok.semi ≠ v.tok := by cases v <;> simp [EhVal.tok]

theorem ne_ori (o : Int) : EhTok.semi ≠ ehOri o := Ne.symm (ehOri_plain o).2

theorem nosemi_conns (cs : List (String × String × Bool)) : .semi ∉ ehConns cs :=
  nosemi_flatMap fun c => nosemi_append (by simp) (by split <;> simp)

theorem nosemi_elems (l : List EhSp) : ∀ b, .semi ∉ ehElems b l := by
  induction l with
  | nil => intro b; simp [ehElems]
  | cons e l ih =>
      intro b
      cases e <;> simp [ehElems, ih, ne_ori]
      cases b <;> simp [ih]

theorem snet_ends (n : EhSNet) : EhEnds (ehSNet n) := by
  refine ⟨_, rfl, ?_⟩
  repeat' apply nosemi_append
  all_goals first
    | exact nosemi_conns _
    | (split <;> simp [ne_volt]; done)
    | (simp [ne_sval]; done)
    | skip
  · refine nosemi_flatMap fun w => nosemi_append ?_ (nosemi_elems _ _)
    cases w.1 <;> simp [EhWk.text]
  · refine nosemi_flatMap fun s => ?_
    unfold ehSpacing
    rw [← List.singleton_append]
    refine nosemi_append (by simp) (nosemi_append (by simp) ?_)
    split
    · split <;> simp
    · simp

theorem net_ends (rs : List (List PathTok)) (n : EhNet) : EhEnds (ehNet rs n) := by
  refine ⟨_, rfl, ?_⟩
  repeat' apply nosemi_append
  all_goals first
    | exact nosemi_conns _
    | (split <;> simp; done)
    | (simp; done)
    | skip
  · cases rs with
    | nil => simp [ehRoutes]
    | cons r rs => simp [ehRoutes]
  · refine nosemi_flatMap fun v => ?_
    unfold ehVpin
    refine nosemi_append (nosemi_append (nosemi_append (by simp) (by split <;> simp)) (by simp)) ?_
    split
    · refine nosemi_append (by simp) ?_
      split <;> simp [ne_ori]
    · simp
  · refine nosemi_flatMap fun p => ?_
    unfold ehNetProp
    refine nosemi_append (by simp) ?_
    split <;> simp [ne_tok]

theorem nosemi_place (l : EhPlace × Int × Int × Int) : .semi ∉ ehPinPlace l := by
  unfold ehPinPlace; split <;> simp [ne_ori]

theorem nosemi_attrs (m : Int) (r : EhRule) : .semi ∉ ehAttrs m r := by
  unfold ehAttrs
  refine nosemi_append ?_ ?_ <;> split <;> simp

theorem pin_ends (p : EhPin) : EhEnds (ehPin p) := by
  refine ⟨_, rfl, ?_⟩
  repeat' apply nosemi_append
  all_goals first
    | (split <;> simp; done)
    | (simp; done)
    | skip
  · split
    · simp
    · refine nosemi_append (nosemi_append (nosemi_flatMap fun b => ?_) (nosemi_flatMap fun b => ?_)) (nosemi_flatMap fun v => ?_)
      · exact nosemi_append (nosemi_append (by simp) (nosemi_attrs _ _)) (by simp)
      · exact nosemi_append (nosemi_append (by simp) (nosemi_attrs _ _)) (by simp)
      · simp [ehPinVia]
  · refine nosemi_flatMap fun q => ?_
    refine nosemi_append (nosemi_append (nosemi_append (nosemi_append (by simp) (nosemi_flatMap fun b => ?_)) (nosemi_flatMap fun b => ?_))
      (nosemi_flatMap fun v => ?_)) ?_
    · exact nosemi_append (nosemi_append (by simp) (nosemi_attrs _ _)) (by simp)
    · exact nosemi_append (nosemi_append (by simp) (nosemi_attrs _ _)) (by simp)
    · simp [ehPortVia]
    · split
      · exact nosemi_place _
      · simp
  · split
    · exact nosemi_place _
    · simp
  · exact nosemi_flatMap fun a => nosemi_append (by simp) (by split <;> simp)

theorem stmt_ends (routes : String → List (List PathTok)) (s : EhStmt) : EhEnds (s.text routes) := by
  cases s with
  | comp c => exact comp_ends c
  | via v => exact via_ends v
  | ndr n => exact ndr_ends n
  | reg r => exact reg_ends r
  | blk b => exact blk_ends b
  | snet n => exact snet_ends n
  | net n => exact net_ends _ n
  | pin p => exact pin_ends p
  | group g => exact group_ends g

/-- a statement of a section begins with `-` -/
theorem stmt_minus (routes : String → List (List PathTok)) (s : EhStmt) : ∃ r, s.text routes = .minus :: r := by
  cases s with
  | blk b =>
      simp only [EhStmt.text, ehBlk]
      cases b.layer with
      | some l => exact ⟨_, rfl⟩
      | none => exact ⟨_, rfl⟩
  | _ => exact ⟨_, rfl⟩

theorem one_minus (pr : String → Option EhPT) (r : List EhTok) : ehReadOne pr (.minus :: r) = none := rfl

/-- a statement of a section does not begin with a word of the language -/
theorem stmt_kw (pt : EhSecKind → String → Option EhPT) (k : EhSecKind) (w : EhKw) (r : List EhTok) :
    ehReadStmt pt k (.kw w :: r) = none := by
  have hs : ehSplit (.kw w :: r) = none ∨ ∃ h os, ehSplit (.kw w :: r) = some (.kw w :: h, os) := by
    simp only [ehSplit]
    cases h : ehSplit r with
    | none => left; rfl
    | some p => right; exact ⟨_, _, rfl⟩
  cases k <;> simp only [ehReadStmt, Option.map_eq_none_iff]
  all_goals first
    | rfl
    | (rcases hs with hs | ⟨h, os, hs⟩
       · simp [ehReadComp, ehReadVia, ehReadNdr, ehReadReg, ehReadPin, ehReadGroup, hs]
       · simp [ehReadComp, ehReadVia, ehReadNdr, ehReadReg, ehReadPin, ehReadGroup, hs])

/-- another statement: a first part with its `;` that begins with a word of the language, and nothing more, except the
properties of a row -/
theorem one_shape (o : EhOne) : ∃ w r rest, o.text = (.kw w :: r) ++ rest ∧ EhEnds (.kw w :: r) ∧
    (rest = [] ∨ ((∀ pr, ehReadOne pr o.text = none) ∧ EhEnds rest ∧ ∀ pr, ehReadOne pr rest = none)) := by
  cases o with
  | die ps =>
      exact ⟨.diearea, _, [], (List.append_nil _).symm, ⟨[.kw .diearea] ++ ehPt _ _ ++ ehPt _ _, rfl, by simp [ehPt]⟩, .inl rfl⟩
  | track t =>
      refine ⟨.tracks, _, [], (List.append_nil _).symm, ?_, .inl rfl⟩
      show EhEnds (ehTrack t)
      refine ⟨_, rfl, ?_⟩
      repeat' apply nosemi_append
      · cases t.isX <;> simp [ehXY]
      · split
        · split <;> simp
        · simp
      · simp
      · simp
  | gcell g =>
      refine ⟨.gcellgrid, _, [], (List.append_nil _).symm,
        ⟨[.kw .gcellgrid, ehXY g.isX, .num g.x, .kw .do_, .num g.num, .kw .step, .num (ehG g.step)], rfl, ?_⟩, .inl rfl⟩
      cases g.isX <;> simp [ehXY]
  | name k s => exact ⟨k.kw, _, [], (List.append_nil _).symm, ⟨[.kw k.kw, .word s], rfl, by simp⟩, .inl rfl⟩
  | divider s => exact ⟨.dividerchar, _, [], (List.append_nil _).symm, ⟨[.kw .dividerchar, .quoted s], rfl, by simp⟩, .inl rfl⟩
  | busbits s => exact ⟨.busbitchars, _, [], (List.append_nil _).symm, ⟨[.kw .busbitchars, .quoted s], rfl, by simp⟩, .inl rfl⟩
  | units d =>
      exact ⟨.units, _, [], (List.append_nil _).symm,
        ⟨[.kw .units, .kw .distance, .kw .microns, .num (ehG d)], rfl, by simp⟩, .inl rfl⟩
  | row r =>
      refine ⟨.row, _, if r.props.length > 0 then
        r.props.flatMap (fun p => [.plus, .kw .property, .word p.1, p.2.1.tok, .kw p.2.2.kw]) ++ [.semi] else [], rfl, ?_, ?_⟩
      · rcases r with ⟨name, site, x, y, orient, _ | ⟨nx, ny, _ | ⟨sx, sy⟩⟩, props⟩
        · exact ⟨[.kw .row, .word name, .word site, .num x, .num y, ehOri orient], rfl, by simp [ne_ori]⟩
        · exact ⟨[.kw .row, .word name, .word site, .num x, .num y, ehOri orient, .kw .do_, .num (ehG nx), .kw .by_, .num (ehG ny)],
            rfl, by simp [ne_ori]⟩
        · exact ⟨[.kw .row, .word name, .word site, .num x, .num y, ehOri orient, .kw .do_, .num (ehG nx), .kw .by_, .num (ehG ny),
            .kw .step, .num (ehG sx), .num (ehG sy)], rfl, by simp [ne_ori]⟩
      · by_cases hp : r.props = []
        · left; simp [hp]
        · right
          have hl : r.props.length > 0 := List.length_pos_iff.2 hp
          refine ⟨fun pr => ?_, ?_, fun pr => ?_⟩
          · show (ehReadRow pr (ehRow r)).map _ = none
            have : ehSplit (ehRow r) = none := by
              unfold ehRow
              rw [if_pos hl]
              have key : ∀ (a b : List EhTok), b ≠ [] → ehSplit (a ++ [.semi] ++ b) = none := by
                intro a b hb
                induction a with
                | nil => simp [ehSplit, hb]
                | cons t a ih =>
                    cases t <;> simp [ehSplit] <;> simp at ih <;> simp [ih]
              exact key _ _ (by simp)
            simp [ehReadRow, this]
          · rw [if_pos hl]
            exact ⟨_, rfl, nosemi_flatMap fun p => by simp [ne_tok]⟩
          · rw [if_pos hl]
            obtain ⟨q, qs, he⟩ := List.exists_cons_of_ne_nil hp
            rw [he]; rfl

/-! ## The sections of the file -/

section
variable (pt : EhSecKind → String → Option EhPT) (pr : String → Option EhPT) (routes : String → List (List PathTok))

theorem fileIn_oneText (o : EhOne) (r : List EhWord) : ehFileIn pt pr none [] (o.text.map .tok ++ r) =
    (ehReadOne pr o.text).bind fun q => (ehFileIn pt pr none [] r).map (.one q :: ·) := by
  obtain ⟨w, a, rest, e, h1, h2⟩ := one_shape o
  rcases h2 with h2 | ⟨h2, h3, h4⟩
  · rw [h2, List.append_nil] at e
    rw [e]
    exact fileIn_one pt pr _ h1 r
  · rw [h2 pr, e, List.map_append, List.append_assoc, fileIn_one pt pr _ h1, fileIn_one pt pr _ h3, h4 pr]
    cases ehReadOne pr (.kw w :: a) <;> rfl

theorem fileIn_open (c : EhSecKind × Int × List EhStmt) (ps : List EhPart) (n : Int) :
    ehFileIn pt pr (some c) [] (ehFileRun routes n (ps.flatMap EhPart.calls)) = none := by
  obtain ⟨k, d, ss⟩ := c
  cases ps with
  | nil => simp [ehFileRun, ehFileIn]
  | cons p ps =>
      cases p with
      | one o =>
          obtain ⟨w, a, rest, e, h1, -⟩ := one_shape o
          simp only [List.flatMap_cons, EhPart.calls, List.cons_append, List.nil_append, ehFileRun]
          rw [e, List.map_append, List.append_assoc, fileIn_stmt pt pr k d ss _ h1, stmt_kw]
          rfl
      | sec k' num ss' => simp [EhPart.calls, ehFileRun, ehFileIn]

theorem fileIn_fin (k : EhSecKind) (d : Int) (ss : List EhStmt) (r : List EhWord) :
    ehFileIn pt pr (some (k, d, ss)) [] (.fin k :: r) = (ehFileIn pt pr none [] r).map (.sec k d ss :: ·) := by
  simp [ehFileIn]

theorem file_byEnd (k : EhSecKind) (hk : ehByEnd k = true) (d : Int) (es : List EhCall) (ss : List EhStmt)
    (hs : ∀ s ∈ ss, s.kind = k) (n : Int) (acc : List EhStmt) :
    ∃ n', ehFileIn pt pr (some (k, d, acc)) [] (ehFileRun routes n (ss.map .stmt ++ .fin k :: es)) =
      (ehAll (ss.map fun s => ehReadStmt pt k (s.text routes))).bind fun rs =>
        (ehFileIn pt pr none [] (ehFileRun routes n' es)).map (.sec k d (acc ++ rs) :: ·) := by
  induction ss generalizing n acc with
  | nil =>
      refine ⟨n, ?_⟩
      simp only [List.map_nil, List.nil_append, ehFileRun, hk, if_true, List.cons_append, fileIn_fin, ehAll, Option.bind_some,
        List.append_nil]
  | cons s ss ih =>
      have hc : ehByCount k = false := by simp [ehByCount, hk]
      have hsk := hs s (by simp)
      cases hr : ehReadStmt pt k (s.text routes) with
      | none =>
          refine ⟨0, ?_⟩
          simp only [List.map_cons, List.cons_append, ehFileRun]
          rw [fileIn_stmt pt pr k d acc _ (stmt_ends routes s), hr]
          rfl
      | some q =>
          obtain ⟨n', h⟩ := ih (fun t ht => hs t (by simp [ht])) (n - 1) (acc ++ [q])
          refine ⟨n', ?_⟩
          simp only [List.map_cons, List.cons_append, ehFileRun, hsk, hc, Bool.false_eq_true, false_and, if_false, List.nil_append]
          rw [fileIn_stmt pt pr k d acc _ (stmt_ends routes s), hr]
          simp only [Option.bind_some, h, ehAll]
          cases ehAll (ss.map fun s => ehReadStmt pt k (s.text routes)) <;> simp

theorem file_byCount (k : EhSecKind) (hk : ehByCount k = true) (d : Int) (ps : List EhPart) (ss : List EhStmt)
    (hs : ∀ s ∈ ss, s.kind = k) (n : Int) (acc : List EhStmt) :
    ∃ n', ehFileIn pt pr (some (k, d, acc)) [] (ehFileRun routes n (ss.map .stmt ++ .fin k :: ps.flatMap EhPart.calls)) =
      if (ss.length : Int) = max 1 n then (ehAll (ss.map fun s => ehReadStmt pt k (s.text routes))).bind fun rs =>
        (ehFileIn pt pr none [] (ehFileRun routes n' (ps.flatMap EhPart.calls))).map (.sec k d (acc ++ rs) :: ·)
      else none := by
  have he : ehByEnd k = false := by cases h : ehByEnd k <;> simp_all [ehByCount]
  induction ss generalizing n acc with
  | nil =>
      refine ⟨n, ?_⟩
      rw [if_neg (by simp only [List.length_nil]; omega)]
      simp only [List.map_nil, List.nil_append, ehFileRun, he, Bool.false_eq_true, if_false]
      exact fileIn_open pt pr routes _ ps n
  | cons s ss ih =>
      have hsk := hs s (by simp)
      cases hr : ehReadStmt pt k (s.text routes) with
      | none =>
          refine ⟨0, ?_⟩
          simp only [List.map_cons, List.cons_append, ehFileRun]
          rw [fileIn_stmt pt pr k d acc _ (stmt_ends routes s), hr]
          simp [ehAll]
      | some q =>
          obtain ⟨n', h⟩ := ih (fun t ht => hs t (by simp [ht])) (n - 1) (acc ++ [q])
          simp only [List.map_cons, List.cons_append, ehFileRun, hsk, hk, true_and]
          by_cases hn : n - 1 ≤ 0
          · refine ⟨n - 1, ?_⟩
            rw [if_pos hn, fileIn_stmt pt pr k d acc _ (stmt_ends routes s), hr]
            simp only [Option.bind_some, List.cons_append, List.nil_append, fileIn_fin]
            cases ss with
            | nil =>
                rw [if_pos (by simp only [List.length_cons, List.length_nil]; omega)]
                simp [ehFileRun, he, ehAll]
            | cons t ss =>
                rw [if_neg (by simp only [List.length_cons]; omega)]
                obtain ⟨a, ha⟩ := stmt_minus routes t
                simp only [List.map_cons, List.cons_append, ehFileRun]
                rw [fileIn_one pt pr _ (stmt_ends routes t), ha, one_minus]
                rfl
          · refine ⟨n', ?_⟩
            rw [if_neg hn, List.nil_append, fileIn_stmt pt pr k d acc _ (stmt_ends routes s), hr]
            simp only [Option.bind_some, h, ehAll]
            by_cases hm : (ss.length : Int) = max 1 (n - 1)
            · rw [if_pos hm, if_pos (by simp only [List.length_cons]; omega)]
              cases ehAll (ss.map fun s => ehReadStmt pt k (s.text routes)) <;> simp
            · rw [if_neg hm, if_neg (by simp only [List.length_cons]; omega)]

end

/-- the statements of a section are of its kind; no section of timing disables (whose statements are not modelled) -/
def EhPart.Kinds : EhPart → Prop
  | .one _ => True
  | .sec k _ ss => k ≠ .timingdisables ∧ ∀ s ∈ ss, s.kind = k

/-- a section that is written with its end (C184) -/
def EhPart.Fine : EhPart → Prop
  | .one _ => True
  | .sec k num ss => (EhSec.mk k num ss.length).Fine

/-- a part read on its own, statement by statement -/
def EhPart.reread (pt : EhSecKind → String → Option EhPT) (pr : String → Option EhPT) (routes : String → List (List PathTok)) :
    EhPart → Option EhPart
  | .one o => (ehReadOne pr o.text).map .one
  | .sec k num ss => (ehAll (ss.map fun s => ehReadStmt pt k (s.text routes))).map (.sec k num)

theorem ehAll_cons {α : Type} (x : Option α) (r : List (Option α)) : ehAll (x :: r) = x.bind fun a => (ehAll r).map (a :: ·) := rfl

open Classical in
/-- C195: the written file is read part by part: each statement means what it means on its own, and it is no DEF file if a
section has no end or a statement is not readable. -/
theorem c195_parts (pt : EhSecKind → String → Option EhPT) (pr : String → Option EhPT) (routes : String → List (List PathTok))
    (n : Int) (ps : List EhPart) (hk : ∀ p ∈ ps, p.Kinds) :
    ehReadFile pt pr (ehFile routes n ps) = if ∀ p ∈ ps, p.Fine then ehAll (ps.map (EhPart.reread pt pr routes)) else none := by
  unfold ehReadFile ehFile
  induction ps generalizing n with
  | nil => simp [ehFileRun, ehFileIn, ehAll]
  | cons p ps ih =>
      have hkp := hk p (by simp)
      have ih := fun n => ih n (fun q hq => hk q (by simp [hq]))
      have split : p.Fine → (if ∀ q ∈ p :: ps, q.Fine then ehAll ((p :: ps).map (EhPart.reread pt pr routes)) else none) =
          (p.reread pt pr routes).bind fun a =>
            (if ∀ q ∈ ps, q.Fine then ehAll (ps.map (EhPart.reread pt pr routes)) else none).map (a :: ·) := by
        intro hf
        by_cases hr : ∀ q ∈ ps, q.Fine
        · rw [if_pos hr, if_pos (by simpa [hf] using hr), List.map_cons, ehAll_cons]
        · rw [if_neg hr, if_neg (fun h => hr (fun q hq => h q (by simp [hq])))]
          cases p.reread pt pr routes <;> rfl
      cases p with
      | one o =>
          rw [split trivial]
          simp only [List.flatMap_cons, EhPart.calls, List.cons_append, List.nil_append, ehFileRun]
          rw [fileIn_oneText, ih]
          simp only [EhPart.reread]
          cases ehReadOne pr o.text <;> rfl
      | sec k num ss =>
          obtain ⟨ht, hss⟩ := hkp
          simp only [List.flatMap_cons, EhPart.calls, List.cons_append, List.append_assoc, List.nil_append, ehFileRun]
          have open_ : ∀ r, ehFileIn pt pr none [] (.head k :: .tok (.num num) :: .tok .semi :: r) =
              ehFileIn pt pr (some (k, num, [])) [] r := by intro r; simp [ehFileIn]
          rw [open_]
          by_cases he : ehByEnd k = true
          · obtain ⟨n', h⟩ := file_byEnd pt pr routes k he num (ps.flatMap EhPart.calls) ss hss num []
            rw [h, ih, split (.inl ((ehByEnd_iff _).1 he))]
            simp only [EhPart.reread, List.nil_append]
            cases ehAll (ss.map fun s => ehReadStmt pt k (s.text routes)) <;> rfl
          · have hc : ehByCount k = true := by simp [ehByCount, he, ht]
            obtain ⟨n', h⟩ := file_byCount pt pr routes k hc num ps ss hss num []
            rw [h, ih]
            by_cases hm : (ss.length : Int) = max 1 num
            · rw [if_pos hm, split (.inr ⟨ht, hm⟩)]
              simp only [EhPart.reread, List.nil_append]
              cases ehAll (ss.map fun s => ehReadStmt pt k (s.text routes)) <;> rfl
            · rw [if_neg hm, if_neg]
              intro h
              rcases h (.sec k num ss) (by simp) with h | h
              · exact he ((ehByEnd_iff _).2 h)
              · exact hm h.2

/-! ## Every kind of statement -/

/-- what the library can deliver, as for the single statements (C183, C185–C189, C191–C193) -/
def EhStmt.Ok (pt : EhSecKind → String → Option EhPT) : EhStmt → Prop
  | .comp c => c.Ok
  | .via v => v.Ok
  | .ndr _ => True
  | .reg r => r.boxes ≠ []
  | .blk b => b.Ok
  | .snet n => n.Ok (pt .specialnets) ∧ ∀ p ∈ n.polys, p.2 ≠ []
  | .net n => ∀ p ∈ n.props, pt .nets p.1 = some p.2.2
  | .pin p => p.Ok
  | .group g => g.boxes = []

/-- statements whose text is DEF -/
def EhStmt.Readable : EhStmt → Prop
  | .comp c => c.Readable
  | .via v => v.polys = []
  | .ndr n => n.props = []
  | .reg r => r.props = []
  | .blk b => b.polys = []
  | .snet n => n.Readable
  | .net n => n.Readable
  | .pin p => p.Readable
  | .group g => g.props = []

/-- the statement that the text says -/
def EhStmt.echoed (routes : String → List (List PathTok)) : EhStmt → EhStmt
  | .via v => .via v.echoed
  | .snet n => .snet n.echoed
  | .net n => .net (n.echoed (routes n.name))
  | .pin p => .pin p.echoed
  | .group g => .group g.echoed
  | s => s

/-- what the library can deliver outside sections -/
def EhOne.Ok : EhOne → Prop
  | .die ps => 2 ≤ ps.length
  | .track t => t.mask = 0 → t.same = false
  | .row r => 0 ≤ r.orient ∧ r.orient < 8
  | .units d => ehUnitsOk d
  | _ => True

/-- statements outside sections whose text is DEF -/
def EhOne.Readable : EhOne → Prop
  | .die _ => True
  | .track t => t.layers ≠ []
  | .row r => r.props = []
  | _ => True

/-- what the text of a statement outside sections says -/
def EhOne.echoed : EhOne → EhOne
  | .die ps => .die (ps.take 2)
  | .track t => .track { t with x := ehG t.x, num := ehG t.num, step := ehG t.step }
  | .row r => .row { r with do_ := r.do_.map fun d => (ehG d.1, ehG d.2.1, d.2.2.map fun s => (ehG s.1, ehG s.2)) }
  | .gcell g => .gcell { g with step := ehG g.step }
  | o => o

/-- the same for a part of a file -/
def EhPart.Ok (pt : EhSecKind → String → Option EhPT) : EhPart → Prop
  | .one o => o.Ok
  | .sec k _ ss => k ≠ .timingdisables ∧ ∀ s ∈ ss, s.kind = k ∧ s.Ok pt

def EhPart.Readable : EhPart → Prop
  | .one o => o.Readable
  | .sec _ _ ss => ∀ s ∈ ss, s.Readable

def EhPart.echoed (routes : String → List (List PathTok)) : EhPart → EhPart
  | .one o => .one o.echoed
  | .sec k num ss => .sec k num (ss.map (EhStmt.echoed routes))

open Classical in
theorem stmt_read (T : DefTech) (isTA : Bool) (nets : List ONet) (pt : EhSecKind → String → Option EhPT) (s : EhStmt) (hs : s.Ok pt) :
    ehReadStmt pt s.kind (s.text (writeNet T isTA nets)) =
      if s.Readable then some (s.echoed (writeNet T isTA nets)) else none := by
  cases s with
  | comp c =>
      have h := c183_component_partial (pt .components) c hs
      simp only [EhStmt.kind, ehReadStmt, EhStmt.text, h, EhStmt.Readable]
      split <;> (rename_i hd; simp [hd, EhStmt.echoed])
  | via v =>
      have h := c191_via_partial v hs
      simp only [EhStmt.kind, ehReadStmt, EhStmt.text, h, EhStmt.Readable]
      split <;> (rename_i hd; simp [hd, EhStmt.echoed])
  | ndr n =>
      have h := c193_ndr_partial (pt .nondefaultrules) n
      simp only [EhStmt.kind, ehReadStmt, EhStmt.text, h, EhStmt.Readable]
      split <;> (rename_i hd; simp [hd, EhStmt.echoed])
  | reg r =>
      have h := c193_region_partial (pt .regions) r hs
      simp only [EhStmt.kind, ehReadStmt, EhStmt.text, h, EhStmt.Readable]
      split <;> (rename_i hd; simp [hd, EhStmt.echoed])
  | blk b =>
      have h := c192_blockage_partial b hs
      simp only [EhStmt.kind, ehReadStmt, EhStmt.text, h, EhStmt.Readable]
      split <;> (rename_i hd; simp [hd, EhStmt.echoed])
  | snet n =>
      have h := c188_snet_partial (pt .specialnets) n hs.1 hs.2
      simp only [EhStmt.kind, ehReadStmt, EhStmt.text, h, EhStmt.Readable]
      split <;> (rename_i hd; simp [hd, EhStmt.echoed])
  | net n =>
      have h := c187_net_partial T isTA nets (pt .nets) n hs
      simp only [EhStmt.kind, ehReadStmt, EhStmt.text, h, EhStmt.Readable]
      split <;> (rename_i hd; simp [hd, EhStmt.echoed])
  | pin p =>
      have h := c189_pin_partial p hs
      simp only [EhStmt.kind, ehReadStmt, EhStmt.text, h, EhStmt.Readable]
      split <;> (rename_i hd; simp [hd, EhStmt.echoed])
  | group g =>
      have h := c197_group_partial (pt .groups) g hs
      simp only [EhStmt.kind, ehReadStmt, EhStmt.text, h, EhStmt.Readable]
      split <;> (rename_i hd; simp [hd, EhStmt.echoed])

open Classical in
theorem one_read (pr : String → Option EhPT) (o : EhOne) (ho : o.Ok) :
    ehReadOne pr o.text = if o.Readable then some o.echoed else none := by
  cases o with
  | die ps =>
      match ps, ho with
      | a :: b :: ps, _ =>
          have h := c186_die_partial a b ps
          show (ehReadDie (ehDie (a :: b :: ps))).map _ = _
          rw [h]
          simp [EhOne.Readable, EhOne.echoed]
  | track t =>
      show (ehReadTrack (ehTrack t)).map _ = _
      rw [c185_track_partial t ho]
      by_cases h : t.layers = []
      · rw [if_pos h, if_neg (fun hn => hn h)]; rfl
      · rw [if_neg h, if_pos (show (EhOne.track t).Readable from h)]; rfl
  | row r =>
      show (ehReadRow pr (ehRow r)).map _ = _
      rw [c185_row_partial pr r ho]
      by_cases h : r.props = []
      · rw [if_pos h, if_pos (show (EhOne.row r).Readable from h)]; rfl
      · rw [if_neg h, if_neg (show ¬ (EhOne.row r).Readable from h)]; rfl
  | gcell g =>
      show (ehReadGcell (ehGcell g)).map _ = _
      rw [c185_gcell]
      simp [EhOne.Readable, EhOne.echoed]
  | name k s => cases k <;> simp [EhOne.text, EhNamed.kw, ehReadOne, EhOne.Readable, EhOne.echoed]
  | divider s => simp [EhOne.text, ehReadOne, EhOne.Readable, EhOne.echoed]
  | busbits s => simp [EhOne.text, ehReadOne, EhOne.Readable, EhOne.echoed]
  | units d =>
      have hd : ehUnitsOk d = true := ho
      have hg : ehG d = d := by
        apply ehG_small
        simp [ehUnitsOk] at hd
        omega
      simp [EhOne.text, ehReadOne, EhOne.Readable, EhOne.echoed, hg, hd]

open Classical in
theorem ehAll_ite {α β : Type} (l : List α) (P : α → Prop) (f : α → β) :
    ehAll (l.map fun a => if P a then some (f a) else none) = if ∀ a ∈ l, P a then some (l.map f) else none := by
  induction l with
  | nil => simp [ehAll]
  | cons a l ih =>
      rw [List.map_cons, ehAll_cons, ih]
      by_cases ha : P a
      · by_cases hl : ∀ b ∈ l, P b
        · rw [if_pos ha, if_pos hl, if_pos (by simpa [ha] using hl)]; rfl
        · rw [if_pos ha, if_neg hl, if_neg (fun h => hl (fun b hb => h b (by simp [hb])))]; rfl
      · have hn : ¬ ∀ b ∈ a :: l, P b := fun h => ha (h a (by simp))
        rw [if_neg ha, if_neg hn]; rfl

open Classical in
theorem part_read (T : DefTech) (isTA : Bool) (nets : List ONet) (pt : EhSecKind → String → Option EhPT) (pr : String → Option EhPT)
    (p : EhPart) (hp : p.Ok pt) : p.reread pt pr (writeNet T isTA nets) =
      if p.Readable then some (p.echoed (writeNet T isTA nets)) else none := by
  cases p with
  | one o =>
      simp only [EhPart.reread, one_read pr o hp, EhPart.Readable]
      split <;> (rename_i hd; simp [hd, EhPart.echoed])
  | sec k num ss =>
      have : (ss.map fun s => ehReadStmt pt k (s.text (writeNet T isTA nets))) =
          ss.map fun s => if s.Readable then some (s.echoed (writeNet T isTA nets)) else none := by
        apply List.map_congr_left
        intro s hs
        rw [← (hp.2 s hs).1]
        exact stmt_read T isTA nets pt s (hp.2 s hs).2
      simp only [EhPart.reread, this]
      rw [ehAll_ite]
      by_cases hd : ∀ s ∈ ss, s.Readable
      · rw [if_pos hd, if_pos (show (EhPart.sec k num ss).Readable from hd)]; rfl
      · rw [if_neg hd, if_neg (show ¬ (EhPart.sec k num ss).Readable from hd)]; rfl

open Classical in
/-- C195: what is written for a whole reference file is a DEF file exactly if every section is written with its end and
every statement is of the kind that is written as DEF; it then has the same parts in the same order, every statement as
the theorems about single statements say, the nets with the routes of the router. -/
theorem c195_file_partial (T : DefTech) (isTA : Bool) (nets : List ONet) (pt : EhSecKind → String → Option EhPT)
    (pr : String → Option EhPT) (n : Int) (ps : List EhPart) (hp : ∀ p ∈ ps, p.Ok pt) :
    ehReadFile pt pr (ehFile (writeNet T isTA nets) n ps) =
      if ∀ p ∈ ps, p.Fine ∧ p.Readable then some (ps.map (EhPart.echoed (writeNet T isTA nets))) else none := by
  have hk : ∀ p ∈ ps, p.Kinds := by
    intro p h
    cases p with
    | one o => trivial
    | sec k num ss => exact ⟨(hp _ h).1, fun s hs => ((hp _ h).2 s hs).1⟩
  have he : ps.map (EhPart.reread pt pr (writeNet T isTA nets)) =
      ps.map fun p => if p.Readable then some (p.echoed (writeNet T isTA nets)) else none :=
    List.map_congr_left fun p h => part_read T isTA nets pt pr p (hp p h)
  rw [c195_parts pt pr _ n ps hk, he, ehAll_ite]
  by_cases h1 : ∀ p ∈ ps, p.Fine
  · rw [if_pos h1]
    by_cases h2 : ∀ p ∈ ps, p.Readable
    · rw [if_pos h2, if_pos (fun p h => ⟨h1 p h, h2 p h⟩)]
    · rw [if_neg h2, if_neg (fun h => h2 (fun p hm => (h p hm).2))]
  · rw [if_neg h1, if_neg (fun h => h1 (fun p hm => (h p hm).1))]

/-- C195: one statement that is not written as DEF makes the whole file unreadable. -/
theorem c195_spoiled (T : DefTech) (isTA : Bool) (nets : List ONet) (pt : EhSecKind → String → Option EhPT)
    (pr : String → Option EhPT) (n : Int) (ps : List EhPart) (hp : ∀ p ∈ ps, p.Ok pt) (k : EhSecKind) (num : Int) (ss : List EhStmt)
    (hm : .sec k num ss ∈ ps) (s : EhStmt) (hs : s ∈ ss) (hr : ¬ s.Readable) :
    ehReadFile pt pr (ehFile (writeNet T isTA nets) n ps) = none := by
  classical
  rw [c195_file_partial T isTA nets pt pr n ps hp, if_neg]
  intro h
  exact hr ((h _ hm).2 s hs)

/-- the name of a component or net, and the section -/
def EhStmt.tag : EhStmt → EhSecKind × String
  | .comp c => (.components, c.id)
  | .via v => (.vias, v.name)
  | .ndr n => (.nondefaultrules, n.name)
  | .reg r => (.regions, r.name)
  | .blk b => (.blockages, b.layer.getD "")
  | .snet n => (.specialnets, n.name)
  | .net n => (.nets, n.name)
  | .pin p => (.pins, p.name)
  | .group g => (.groups, g.name)

/-- C195: nothing is added and nothing is lost: a file that can be read has, section by section, statements of the same
names in the same order, and the same numbers in the headers. -/
theorem c195_names (T : DefTech) (isTA : Bool) (nets : List ONet) (pt : EhSecKind → String → Option EhPT)
    (pr : String → Option EhPT) (n : Int) (ps qs : List EhPart) (hp : ∀ p ∈ ps, p.Ok pt)
    (h : ehReadFile pt pr (ehFile (writeNet T isTA nets) n ps) = some qs) :
    qs.map (fun p => match p with | .one _ => none | .sec k num ss => some (k, num, ss.map EhStmt.tag)) =
    ps.map (fun p => match p with | .one _ => none | .sec k num ss => some (k, num, ss.map EhStmt.tag)) := by
  classical
  rw [c195_file_partial T isTA nets pt pr n ps hp] at h
  split at h
  · simp only [Option.some.injEq] at h
    subst h
    rw [List.map_map]
    apply List.map_congr_left
    intro p _
    cases p with
    | one o => rfl
    | sec k num ss =>
        simp only [Function.comp, EhPart.echoed, List.map_map]
        congr 3
        apply List.map_congr_left
        intro s _
        cases s <;> rfl
  · cases h

/-- a file with a die area, tracks, two components, a pin and a net -/
def exEhFile : List EhPart :=
  [.one (.name .design "top"), .one (.divider "/"), .one (.units 2000), .one (.die [(0, 0), (1000, 2000)]),
   .one (.track { isX := true, x := 100, num := 5, step := 200, layers := ["M1"] }),
   .sec .components 2 [.comp { id := "u1", name := "INV" }, .comp { id := "u2", name := "INV", place := some (.placed, 10, 20, 0) }],
   .sec .pins 1 [.pin { name := "a", net := "n1", boxes := [{ layer := "M2", box := (0, 0, 10, 10) }], place := some (.placed, 5, 5, 0) }],
   .sec .nets 1 [.net { name := "n1", conns := [("PIN", "a", false), ("u1", "A", false)] }],
   .sec .groups 1 [.group { name := "g", members := ["u*"] }]]

/-- such a file is delivered by the library and comes back; with a covered component it does not -/
example : (∀ p ∈ exEhFile, p.Ok (fun _ _ => none)) ∧ ∀ p ∈ exEhFile, p.Fine ∧ p.Readable := by
  simp [exEhFile, EhPart.Ok, EhOne.Ok, EhStmt.Ok, EhStmt.kind, EhPart.Fine, EhPart.Readable, EhOne.Readable, EhStmt.Readable, EhSec.Fine,
    EhComp.Ok, EhComp.Readable, EhPin.Ok, EhPin.Readable, EhPlaceOk, EhNet.Readable, ehByEnd, ehUnitsOk]
  refine ⟨?_, by omega⟩
  rintro _ _ _ _ rfl rfl rfl rfl
  simp

example : ehReadFile (fun _ _ => none) (fun _ => none) (ehFile (fun _ => []) 7 exEhFile) = some exEhFile := by decide +kernel

end TR
