import Verif.Echo.Lemmas

/-!
# C183: components are written back as they were read

For every component that the library can hand to the writer, the text that is written is read back as the same
component, unless the component is covered, is unplaced with a location, has a region of coordinates, a foreign cell
or a property; then the text is no DEF statement at all.
-/

namespace TR

/-- what the library hands over: orientations are 0 to 7, an unplaced component without location has `-1` three times
— def.y:548-555, 1986-2014 -/
def EhComp.Ok (c : EhComp) : Prop :=
  match c.place with
  | none => True
  | some (.unplaced, x, y, o) => (x = -1 ∧ y = -1) → o = -1
  | some (_, _, _, o) => 0 ≤ o ∧ o < 8

/-- components that are written in the syntax of DEF -/
def EhComp.Readable (c : EhComp) : Prop :=
  (∀ x y o, c.place ≠ some (.cover, x, y, o)) ∧
  (∀ x y o, c.place = some (.unplaced, x, y, o) → x = -1 ∧ y = -1) ∧
  c.bounds = [] ∧ c.foreign = none ∧ c.props = []

/-- the options of a component in the order in which they are written -/
def ehCompOpts (c : EhComp) : List (List EhTok) :=
  (match c.source with | some s => [[.kw .source, .word s]] | none => [])
  ++ (match c.place with | some p => [(ehPlace p).tail] | none => [])
  ++ (match c.generate with
      | some (g, some m) => [[.kw .generate, .word g, .word m]]
      | some (g, none) => [[.kw .generate, .word g]]
      | none => [])
  ++ (match c.weight with | some w => [[.kw .weight, .num w]] | none => [])
  ++ (match c.eeq with | some s => [[.kw .eeqmaster, .word s]] | none => [])
  ++ (match c.region with | some s => [[.kw .region, .word s]] | none => [])
  ++ c.bounds.map (fun b => [.kw .region, .num b.1, .num b.2.1, .num b.2.2.1, .num b.2.2.2])
  ++ (if c.maskShift.length ≠ 0 then [[.kw .maskshift, .digits c.maskShift.reverse]] else [])
  ++ (match c.halo with
      | some (soft, l, b, r, t) =>
          [[.kw .halo] ++ (if soft then [.kw .soft] else []) ++ [.num l, .num b, .num r, .num t]]
      | none => [])
  ++ (match c.routeHalo with
      | some (d, lo, hi) => [[.kw .routehalo, .num d, .word lo, .word hi]] | none => [])
  ++ (match c.foreign with
      | some (f, x, y, o) => [[.kw .foreign, .word f, .num x, .num y, ehOri o, .num o]] | none => [])
  ++ c.props.map (fun p => [.kw .property, .word p.1, p.2.1.tok, .kw p.2.2.kw])

theorem ehPlace_plus (p : EhPlace × Int × Int × Int) : ehPlace p = .plus :: (ehPlace p).tail := by
  obtain ⟨k, x, y, o⟩ := p; cases k <;> rfl

theorem flatMap_one {α β : Type} (f : α → List β) (x : α) : [x].flatMap f = f x := by simp

theorem flatMap_map' {α β γ : Type} (f : α → β) (g : β → List γ) (l : List α) :
    (l.map f).flatMap g = l.flatMap (fun x => g (f x)) := by
  induction l with
  | nil => rfl
  | cons x l ih => simp [ih]

theorem ehComp_eq (c : EhComp) :
    ehComp c = ([.minus, .word c.id, .word c.name] ++ c.nets.map .word) ++
      ((ehCompOpts c).flatMap (fun o => .plus :: o) ++ [.semi]) := by
  unfold ehComp ehCompOpts
  simp only [List.flatMap_append, flatMap_map', List.append_assoc]
  congr 2
  congr 1
  · cases c.source <;> rfl
  congr 1
  · cases c.place with
    | none => rfl
    | some p => simp only [flatMap_one]; exact ehPlace_plus p
  congr 1
  · rcases c.generate with _ | ⟨g, _ | m⟩ <;> rfl
  congr 1
  · cases c.weight <;> rfl
  congr 1
  · cases c.eeq <;> rfl
  congr 1
  · cases c.region <;> rfl
  congr 2
  · split <;> rfl
  congr 1
  · rcases c.halo with _ | ⟨s, l, b, r, t⟩ <;> simp
  congr 1
  · rcases c.routeHalo with _ | ⟨d, lo, hi⟩ <;> rfl
  congr 1
  rcases c.foreign with _ | ⟨f, x, y, o⟩ <;> rfl

theorem ehPlace_plain (p : EhPlace × Int × Int × Int) : ∀ t ∈ (ehPlace p).tail, EhPlainTok t := by
  obtain ⟨k, x, y, o⟩ := p
  have ho := ehOri_plain o
  intro t ht
  cases k with
  | unplaced =>
      simp only [ehPlace, List.cons_append, List.nil_append, List.tail_cons, List.mem_cons] at ht
      rcases ht with h | h
      · subst h; simp [EhPlainTok]
      · split at h
        · simp only [List.mem_cons, List.not_mem_nil, or_false] at h
          rcases h with h | h | h <;> subst h <;> first | exact ho | simp [EhPlainTok]
        · simp at h
  | fixed =>
      simp only [ehPlace, ehPt, List.cons_append, List.nil_append, List.tail_cons, List.mem_cons, List.not_mem_nil,
        or_false] at ht
      rcases ht with h | h | h | h | h | h <;> subst h <;> first | exact ho | simp [EhPlainTok]
  | placed =>
      simp only [ehPlace, ehPt, List.cons_append, List.nil_append, List.tail_cons, List.mem_cons, List.not_mem_nil,
        or_false] at ht
      rcases ht with h | h | h | h | h | h <;> subst h <;> first | exact ho | simp [EhPlainTok]
  | cover =>
      simp only [ehPlace, ehPt, List.cons_append, List.nil_append, List.tail_cons, List.mem_cons, List.not_mem_nil,
        or_false] at ht
      rcases ht with h | h | h | h <;> subst h <;> first | exact ho | simp [EhPlainTok]

theorem ehVal_plain (v : EhVal) : EhPlainTok v.tok := by cases v <;> simp [EhVal.tok, EhPlainTok]

theorem ehCompOpts_plain (c : EhComp) : ∀ o ∈ ehCompOpts c, ∀ t ∈ o, EhPlainTok t := by
  intro o ho
  unfold ehCompOpts at ho
  simp only [List.mem_append] at ho
  rcases ho with (((((((((((h | h) | h) | h) | h) | h) | h) | h) | h) | h) | h) | h)
  · cases hc : c.source <;> rw [hc] at h <;> simp at h; subst h; simp [EhPlainTok]
  · cases hc : c.place with
    | none => rw [hc] at h; simp at h
    | some p => rw [hc] at h; simp at h; subst h; exact ehPlace_plain p
  · rcases hc : c.generate with _ | ⟨g, _ | m⟩ <;> rw [hc] at h <;> simp at h <;> subst h <;> simp [EhPlainTok]
  · cases hc : c.weight <;> rw [hc] at h <;> simp at h; subst h; simp [EhPlainTok]
  · cases hc : c.eeq <;> rw [hc] at h <;> simp at h; subst h; simp [EhPlainTok]
  · cases hc : c.region <;> rw [hc] at h <;> simp at h; subst h; simp [EhPlainTok]
  · obtain ⟨b, _, rfl⟩ := List.mem_map.1 h; simp [EhPlainTok]
  · split at h <;> simp at h; subst h; simp [EhPlainTok]
  · rcases hc : c.halo with _ | ⟨s, l, b, r, t⟩ <;> rw [hc] at h <;> simp at h
    subst h; cases s <;> simp [EhPlainTok]
  · rcases hc : c.routeHalo with _ | ⟨d, lo, hi⟩ <;> rw [hc] at h <;> simp at h; subst h; simp [EhPlainTok]
  · rcases hc : c.foreign with _ | ⟨f, x, y, r⟩ <;> rw [hc] at h <;> simp at h
    subst h
    have := ehOri_plain r
    intro t ht
    simp only [List.mem_cons, List.not_mem_nil, or_false] at ht
    rcases ht with h | h | h | h | h | h <;> subst h <;> first | exact this | simp [EhPlainTok]
  · obtain ⟨b, _, rfl⟩ := List.mem_map.1 h
    have := ehVal_plain b.2.1
    intro t ht
    simp only [List.mem_cons, List.not_mem_nil, or_false] at ht
    rcases ht with h | h | h | h <;> subst h <;> first | exact this | simp [EhPlainTok]

theorem ehReadComp_eq (ptype : String → Option EhPT) (c : EhComp) :
    ehReadComp ptype (ehComp c) =
      (ehCompOpts c).foldlM (ehCompOpt ptype) { id := c.id, name := c.name, nets := c.nets } := by
  rw [ehReadComp, ehComp_eq, ehSplit_stmt _ _ _ (ehCompOpts_plain c)]
  · simp [ehWords_map]
  · intro t ht
    simp only [List.mem_append, List.mem_cons, List.not_mem_nil, or_false, List.mem_map] at ht
    rcases ht with (h | h | h) | ⟨n, _, h⟩ <;> subst h <;> simp [EhPlainTok]

theorem place_read (ptype : String → Option EhPT) (s : EhComp) (k : EhPlace) (x y o : Int)
    (hk : k ≠ .cover) (hu : k = .unplaced → x = -1 ∧ y = -1 ∧ o = -1) (ho : k ≠ .unplaced → 0 ≤ o ∧ o < 8) :
    ehCompOpt ptype s (ehPlace (k, x, y, o)).tail = some { s with place := some (k, x, y, o) } := by
  have hr := ehReadOri_ori o
  cases k with
  | cover => exact absurd rfl hk
  | unplaced => obtain ⟨rfl, rfl, rfl⟩ := hu rfl; rfl
  | fixed =>
      rw [if_pos (ho (by simp))] at hr
      show ehReadPlace .fixed x y (ehOri o) s = _
      simp [ehReadPlace, hr]
  | placed =>
      rw [if_pos (ho (by simp))] at hr
      show ehReadPlace .placed x y (ehOri o) s = _
      simp [ehReadPlace, hr]

theorem comp_readable (ptype : String → Option EhPT) (c : EhComp) (hok : c.Ok) (hr : c.Readable) :
    ehReadComp ptype (ehComp c) = some c := by
  rw [ehReadComp_eq]
  obtain ⟨hcov, hun, hb, hf, hp⟩ := hr
  unfold ehCompOpts
  obtain ⟨id, name, nets, source, place, generate, weight, eeq, region, bounds, maskShift, halo, routeHalo, foreign,
    props⟩ := c
  simp only at hb hf hp hcov hun
  subst hb; subst hf; subst hp
  simp only [foldlM_append', List.map_nil, List.foldlM_nil]
  have e1 : ∀ s : EhComp, s.source = none → List.foldlM (ehCompOpt ptype) s
      (match (generalizing := false) source with | some s => [[EhTok.kw .source, .word s]] | none => []) = some { s with source := source } := by
    intro s hs; cases source with
    | none => cases s; simp_all
    | some v => rfl
  rw [e1 _ rfl]; simp only [Option.bind_some]
  have e2 : ∀ s : EhComp, s.place = none → List.foldlM (ehCompOpt ptype) s
      (match (generalizing := false) place with | some p => [(ehPlace p).tail] | none => []) = some { s with place := place } := by
    intro s hs
    cases place with
    | none => cases s; simp_all
    | some v =>
        obtain ⟨k, x, y, o⟩ := v
        have := place_read ptype s k x y o (fun h => hcov x y o (by rw [h]))
          (fun h => by
            subst h
            have h1 := hun x y o rfl
            exact ⟨h1.1, h1.2, hok h1⟩)
          (fun h => by cases k with | unplaced => exact absurd rfl h | _ => exact hok)
        simp [this]
  rw [e2 _ rfl]; simp only [Option.bind_some]
  have e3 : ∀ s : EhComp, s.generate = none → List.foldlM (ehCompOpt ptype) s
      (match (generalizing := false) generate with
        | some (g, some m) => [[EhTok.kw .generate, .word g, .word m]]
        | some (g, none) => [[.kw .generate, .word g]]
        | none => []) = some { s with generate := generate } := by
    intro s hs
    rcases generate with _ | ⟨g, _ | m⟩
    · cases s; simp_all
    · rfl
    · rfl
  rw [e3 _ rfl]; simp only [Option.bind_some]
  have e4 : ∀ s : EhComp, s.weight = none → List.foldlM (ehCompOpt ptype) s
      (match (generalizing := false) weight with | some w => [[EhTok.kw .weight, .num w]] | none => []) = some { s with weight := weight } := by
    intro s hs; cases weight with
    | none => cases s; simp_all
    | some v => rfl
  rw [e4 _ rfl]; simp only [Option.bind_some]
  have e5 : ∀ s : EhComp, s.eeq = none → List.foldlM (ehCompOpt ptype) s
      (match (generalizing := false) eeq with | some w => [[EhTok.kw .eeqmaster, .word w]] | none => []) = some { s with eeq := eeq } := by
    intro s hs; cases eeq with
    | none => cases s; simp_all
    | some v => rfl
  rw [e5 _ rfl]; simp only [Option.bind_some]
  have e6 : ∀ s : EhComp, s.region = none → List.foldlM (ehCompOpt ptype) s
      (match (generalizing := false) region with | some w => [[EhTok.kw .region, .word w]] | none => []) = some { s with region := region } := by
    intro s hs; cases region with
    | none => cases s; simp_all
    | some v => rfl
  rw [e6 _ rfl]; simp only [Option.bind_some]
  have e7 : ∀ s : EhComp, s.maskShift = [] → List.foldlM (ehCompOpt ptype) s
      (if maskShift.length ≠ 0 then [[EhTok.kw .maskshift, .digits maskShift.reverse]] else [])
        = some { s with maskShift := maskShift } := by
    intro s hs; cases maskShift with
    | nil => cases s; simp_all
    | cons d ds => simp [ehCompOpt]
  simp only [pure, Option.bind_some]
  rw [e7 _ rfl]; simp only [Option.bind_some]
  have e8 : ∀ s : EhComp, s.halo = none → List.foldlM (ehCompOpt ptype) s
      (match (generalizing := false) halo with
        | some (soft, l, b, r, t) =>
          [[EhTok.kw .halo] ++ (if soft then [.kw .soft] else []) ++ [.num l, .num b, .num r, .num t]]
        | none => []) = some { s with halo := halo } := by
    intro s hs
    rcases halo with _ | ⟨f, l, b, r, t⟩
    · cases s; simp_all
    · cases f <;> rfl
  rw [e8 _ rfl]; simp only [Option.bind_some]
  have e9 : ∀ s : EhComp, s.routeHalo = none → List.foldlM (ehCompOpt ptype) s
      (match (generalizing := false) routeHalo with
        | some (d, lo, hi) => [[EhTok.kw .routehalo, .num d, .word lo, .word hi]] | none => [])
        = some { s with routeHalo := routeHalo } := by
    intro s hs
    rcases routeHalo with _ | ⟨f, l, b⟩
    · cases s; simp_all
    · rfl
  rw [e9 _ rfl]; simp [pure]

theorem comp_unreadable (ptype : String → Option EhPT) (c : EhComp) (hr : ¬ c.Readable) :
    ehReadComp ptype (ehComp c) = none := by
  rw [ehReadComp_eq]
  have key : ∃ o ∈ ehCompOpts c, ∀ t, ehCompOpt ptype t o = none := by
    apply Classical.byContradiction
    intro hno
    apply hr
    have hn : ∀ o ∈ ehCompOpts c, ¬ ∀ t, ehCompOpt ptype t o = none := fun o ho h => hno ⟨o, ho, h⟩
    refine ⟨?_, ?_, ?_, ?_, ?_⟩
    · intro x y o hp
      refine hn (ehPlace (.cover, x, y, o)).tail ?_ (fun t => rfl)
      unfold ehCompOpts; rw [hp]; simp
    · intro x y o hp
      apply Classical.byContradiction
      intro hxy
      have hxy' : x ≠ -1 ∨ y ≠ -1 := by omega
      refine hn (ehPlace (.unplaced, x, y, o)).tail ?_ (fun t => ?_)
      · unfold ehCompOpts; rw [hp]; simp
      · simp only [ehPlace, if_pos hxy']; rfl
    · cases hb : c.bounds with
      | nil => rfl
      | cons b bs =>
          exact (hn [.kw .region, .num b.1, .num b.2.1, .num b.2.2.1, .num b.2.2.2]
            (by unfold ehCompOpts; rw [hb]; simp) (fun t => rfl)).elim
    · rcases hf : c.foreign with _ | ⟨f, x, y, o⟩
      · rfl
      · refine (hn [.kw .foreign, .word f, .num x, .num y, ehOri o, .num o]
            (by unfold ehCompOpts; rw [hf]; simp) (fun t => ?_)).elim
        have : ∃ z, ehOri o = z := ⟨_, rfl⟩
        obtain ⟨z, hz⟩ := this
        rw [hz]; cases z <;> rfl
    · cases hp : c.props with
      | nil => rfl
      | cons p ps =>
          refine (hn [.kw .property, .word p.1, p.2.1.tok, .kw p.2.2.kw]
            (by unfold ehCompOpts; rw [hp]; simp) (fun t => ?_)).elim
          rcases p with ⟨n, v, k⟩
          cases v <;> simp [ehCompOpt, ehPairs, EhVal.tok]
  obtain ⟨o, ho, hb⟩ := key
  exact foldlM_bad _ _ _ o ho hb

open Classical in
/-- C183: what is written for a component is read back as that component, or is no statement of DEF: exactly when the
component is covered, unplaced at a location, or has a region of coordinates, a foreign cell or a property. -/
theorem c183_component_partial (ptype : String → Option EhPT) (c : EhComp) (hok : c.Ok) :
    ehReadComp ptype (ehComp c) = if c.Readable then some c else none := by
  split
  · next h => exact comp_readable ptype c hok h
  · next h => exact comp_unreadable ptype c h

/-- C183: two different components never get the same text. -/
theorem c183_distinct (a b : EhComp) (ha : a.Ok) (hb : b.Ok) (hra : a.Readable) (hrb : b.Readable)
    (h : ehComp a = ehComp b) : a = b := by
  have h1 := comp_readable (fun _ => none) a ha hra
  rw [h, comp_readable (fun _ => none) b hb hrb] at h1
  exact (Option.some.inj h1).symm

/-- C183 fails for a covered component: its text is refused by the grammar. -/
theorem c183_cover : ∃ c : EhComp, c.Ok ∧ ∀ pt, ehReadComp pt (ehComp c) = none :=
  ⟨{ id := "u1", name := "RAM", place := some (.cover, 10, 20, 0) }, by simp [EhComp.Ok],
    fun pt => comp_unreadable pt _ (fun h => h.1 10 20 0 rfl)⟩

/-- C183 fails for a component with a property. -/
theorem c183_property (c : EhComp) (p : String × EhVal × EhPT) (hp : p ∈ c.props) (pt : String → Option EhPT) :
    ehReadComp pt (ehComp c) = none :=
  comp_unreadable pt c (fun h => by rw [h.2.2.2.2] at hp; cases hp)

/-- a placed component with a source, a weight, a soft halo and a mask shift -/
def exEhComp : EhComp :=
  { id := "u7", name := "NAND2", source := some "DIST", place := some (.placed, 400, 1200, 6), weight := some 3,
    maskShift := [0, 1, 2], halo := some (true, 1, 2, 3, 4), routeHalo := some (5, "M1", "M4") }

example : exEhComp.Ok ∧ exEhComp.Readable := by
  simp [EhComp.Ok, EhComp.Readable, exEhComp]

example : ehReadComp (fun _ => none) (ehComp exEhComp) = some exEhComp := by decide +kernel

/-- the grammar accepts a covered component when it is written with parentheses, and properties without type -/
example : ehReadComp (fun _ => some .r) [.minus, .word "u1", .word "RAM", .plus, .kw .cover, .lp, .num 10, .num 20, .rp,
    .ori .n, .plus, .kw .property, .word "p", .num 3, .semi]
    = some { id := "u1", name := "RAM", place := some (.cover, 10, 20, 0), props := [("p", .num 3, .r)] } := by
  decide +kernel

end TR
