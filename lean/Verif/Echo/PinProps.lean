import Verif.Echo.PinSpec
import Verif.Echo.SNetProps

/-!
# C189: pins are written back as they were read
-/

namespace TR

/-- a placement that the grammar gives -/
def EhPlaceOk (l : EhPlace × Int × Int × Int) : Prop := l.1 ≠ .unplaced ∧ 0 ≤ l.2.2.2 ∧ l.2.2.2 < 8

/-- what the library gives for a pin: placements with an orientation and polygons of three points or more -/
def EhPin.Ok (p : EhPin) : Prop :=
  (∀ l ∈ p.place, EhPlaceOk l) ∧ (∀ b ∈ p.polys, 3 ≤ b.pts.length) ∧
  ∀ q ∈ p.ports, (∀ l ∈ q.place, EhPlaceOk l) ∧ ∀ b ∈ q.polys, 3 ≤ b.pts.length

/-- pins that are written in the syntax of DEF: rectangles stand only in the pin, polygons and vias only in ports (vias
of a pin without rectangles are not written), and there are no antenna options -/
def EhPin.Readable (p : EhPin) : Prop :=
  p.polys = [] ∧ (p.boxes = [] ∨ p.vias = []) ∧ (∀ q ∈ p.ports, q.boxes = []) ∧ p.antennas = []

/-- the placement of the pin is written after the ports: if the last one has none, it is read as the port's -/
def EhPin.moves (p : EhPin) : Bool := p.place.isSome && (p.ports.getLast?.any fun q => q.place.isNone)

/-- the pin that is described by what is written -/
def EhPin.echoed (p : EhPin) : EhPin :=
  { p with
    vias := []
    ports := if p.moves then ehLast (fun q => { q with place := p.place }) p.ports else p.ports
    place := if p.moves then none else p.place }

/-- the options of a port in the order in which they are written -/
def ehPortOpts (q : EhPort) : List (List EhTok) :=
  [.kw .port] :: (q.boxes.map (fun b => (ehPortBox b).tail) ++ q.polys.map (fun b => (ehPortPoly b).tail)
  ++ q.vias.map (fun v => (ehPortVia v).tail) ++ q.place.toList.map (fun l => (ehPinPlace l).tail))

/-- the options of a pin after the net, in the order in which they are written, without the antenna options -/
def ehPinOpts (p : EhPin) : List (List EhTok) :=
  p.dir.toList.map (fun s => [.kw .direction, .word s])
  ++ p.use.toList.map (fun s => [.kw .use, .word s])
  ++ p.netExpr.toList.map (fun s => [.kw .netexpr, .quoted s])
  ++ p.supply.toList.map (fun s => [.kw .supply, .word s])
  ++ p.ground.toList.map (fun s => [.kw .ground, .word s])
  ++ (if p.boxes = [] ∧ p.polys = [] then []
      else p.boxes.map (fun b => (ehPinBox b).tail) ++ p.polys.map (fun b => (ehPinPoly b).tail)
        ++ p.vias.map (fun v => (ehPinVia v).tail))
  ++ p.ports.flatMap ehPortOpts
  ++ p.place.toList.map (fun l => (ehPinPlace l).tail)
  ++ (if p.special then [[.kw .special]] else [])

theorem pinPlace_plus (l : EhPlace × Int × Int × Int) : ehPinPlace l = .plus :: (ehPinPlace l).tail := by
  obtain ⟨k, x, y, o⟩ := l; cases k <;> rfl

theorem port_eq (q : EhPort) : ehPort q = (ehPortOpts q).flatMap (fun o => .plus :: o) := by
  unfold ehPort ehPortOpts
  simp only [List.flatMap_cons, List.flatMap_append, flatMap_map', List.append_assoc, List.cons_append, List.nil_append]
  congr 2
  congr 1
  congr 1
  congr 1
  cases q.place with
  | none => rfl
  | some l => simp [← pinPlace_plus]

theorem flatMap_flatMap' {α β γ : Type} (f : α → List β) (g : β → List γ) (l : List α) :
    (l.flatMap f).flatMap g = l.flatMap (fun a => (f a).flatMap g) := by
  induction l with
  | nil => rfl
  | cons a l ih => simp [ih]

theorem ehPin_eq (p : EhPin) :
    ehPin p = [.minus, .word p.name] ++ ((([.kw .net, .word p.net] :: ehPinOpts p).flatMap (fun o => .plus :: o)) ++
      (p.antennas.flatMap ehAntenna ++ [.semi])) := by
  unfold ehPin ehPinOpts
  simp only [List.flatMap_cons, List.flatMap_append, flatMap_map', List.append_assoc, List.cons_append, List.nil_append,
    flatMap_flatMap', ← port_eq]
  congr 5
  congr 1
  · cases p.dir <;> rfl
  congr 1
  · cases p.use <;> rfl
  congr 1
  · cases p.netExpr <;> rfl
  congr 1
  · cases p.supply <;> rfl
  congr 1
  · cases p.ground <;> rfl
  congr 1
  · split
    · rfl
    · simp only [List.flatMap_append, flatMap_map']; rfl
  congr 1
  congr 1
  · cases p.place with
    | none => rfl
    | some l => simp [← pinPlace_plus]
  congr 1
  cases p.special <;> rfl

theorem attrs_plain (m : Int) (r : EhRule) : ∀ t ∈ ehAttrs m r, EhPlainTok t := by
  unfold ehAttrs; cases r <;> by_cases h : m = 0 <;> simp [h, EhPlainTok]

theorem pinPlace_plain (l : EhPlace × Int × Int × Int) : ∀ t ∈ (ehPinPlace l).tail, EhPlainTok t := by
  obtain ⟨k, x, y, o⟩ := l
  have ho := ehOri_plain o
  cases k <;> simp [ehPinPlace, EhPlainTok] <;> exact ho

theorem portOpts_plain (q : EhPort) : ∀ o ∈ ehPortOpts q, ∀ t ∈ o, EhPlainTok t := by
  intro o ho
  unfold ehPortOpts at ho
  simp only [List.mem_cons, List.mem_append] at ho
  rcases ho with h | ((h | h) | h) | h
  · subst h; simp [EhPlainTok]
  · obtain ⟨b, _, rfl⟩ := List.mem_map.1 h
    intro t ht
    simp only [ehPortBox, List.cons_append, List.nil_append, List.tail_cons, List.mem_cons, List.mem_append,
      List.not_mem_nil, or_false] at ht
    rcases ht with h | h | h | h | h | h | h
    all_goals first | exact attrs_plain _ _ _ h | (subst h; simp [EhPlainTok])
  · obtain ⟨b, _, rfl⟩ := List.mem_map.1 h
    intro t ht
    simp only [ehPortPoly, List.cons_append, List.nil_append, List.tail_cons, List.mem_cons, List.mem_append,
      List.not_mem_nil, or_false, List.mem_flatMap] at ht
    rcases ht with h | h | h | ⟨q, _, h | h | h | h⟩
    all_goals first | exact attrs_plain _ _ _ h | (subst h; simp [EhPlainTok])
  · obtain ⟨b, _, rfl⟩ := List.mem_map.1 h; simp [ehPortVia, EhPlainTok]
  · obtain ⟨b, _, rfl⟩ := List.mem_map.1 h; exact pinPlace_plain b

theorem pinOpts_plain (p : EhPin) : ∀ o ∈ ehPinOpts p, ∀ t ∈ o, EhPlainTok t := by
  intro o ho
  unfold ehPinOpts at ho
  simp only [List.mem_append] at ho
  rcases ho with ((((((((h | h) | h) | h) | h) | h) | h) | h) | h)
  · obtain ⟨b, _, rfl⟩ := List.mem_map.1 h; simp [EhPlainTok]
  · obtain ⟨b, _, rfl⟩ := List.mem_map.1 h; simp [EhPlainTok]
  · obtain ⟨b, _, rfl⟩ := List.mem_map.1 h; simp [EhPlainTok]
  · obtain ⟨b, _, rfl⟩ := List.mem_map.1 h; simp [EhPlainTok]
  · obtain ⟨b, _, rfl⟩ := List.mem_map.1 h; simp [EhPlainTok]
  · split at h
    · cases h
    · simp only [List.mem_append] at h
      rcases h with (h | h) | h
      · obtain ⟨b, _, rfl⟩ := List.mem_map.1 h
        intro t ht
        simp only [ehPinBox, List.cons_append, List.nil_append, List.tail_cons, List.mem_cons, List.mem_append,
          List.not_mem_nil, or_false] at ht
        rcases ht with h | h | h | h | h | h | h | h | h | h | h
        all_goals first | exact attrs_plain _ _ _ h | (subst h; simp [EhPlainTok])
      · obtain ⟨b, _, rfl⟩ := List.mem_map.1 h
        intro t ht
        simp only [ehPinPoly, List.cons_append, List.nil_append, List.tail_cons, List.mem_cons, List.mem_append,
          List.not_mem_nil, or_false, List.mem_flatMap] at ht
        rcases ht with h | h | h | ⟨q, _, h | h⟩
        all_goals first | exact attrs_plain _ _ _ h | (subst h; simp [EhPlainTok])
      · obtain ⟨b, _, rfl⟩ := List.mem_map.1 h; simp [ehPinVia, EhPlainTok]
  · obtain ⟨q, _, h⟩ := List.mem_flatMap.1 h
    exact portOpts_plain q o h
  · obtain ⟨b, _, rfl⟩ := List.mem_map.1 h; exact pinPlace_plain b
  · split at h
    · rw [List.mem_singleton] at h; subst h; simp [EhPlainTok]
    · cases h

theorem antennas_plain (as : List (Int × Option String)) : ∀ t ∈ as.flatMap ehAntenna, EhPlainTok t := by
  intro t ht
  obtain ⟨⟨v, l⟩, _, h⟩ := List.mem_flatMap.1 ht
  cases l <;> simp only [ehAntenna, List.cons_append, List.nil_append, List.append_nil, List.mem_cons,
    List.not_mem_nil, or_false] at h
  · rcases h with h | h <;> subst h <;> simp [EhPlainTok]
  · rcases h with h | h | h | h <;> subst h <;> simp [EhPlainTok]

theorem ehReadPin_eq (p : EhPin) (ha : p.antennas = []) :
    ehReadPin (ehPin p) = ((ehPinOpts p).foldlM ehPinOpt { pin := { name := p.name, net := p.net } }).map (·.pin) := by
  rw [ehPin_eq, ha, ehReadPin]
  simp only [List.flatMap_nil, List.nil_append]
  rw [ehSplit_stmt _ _ (by simp [EhPlainTok]) (by
    intro o ho
    rcases List.mem_cons.1 ho with rfl | ho
    · simp [EhPlainTok]
    · exact pinOpts_plain p o ho)]
  rfl

/-- no antenna word inside an option -/
theorem ptList_antenna (ts : List EhTok) (ps : List (Int × Int)) (h : ehPtList ts = some ps) :
    ∀ t ∈ ts, t ≠ .kw .antenna := by
  fun_induction ehPtList ts generalizing ps with
  | case1 => simp
  | case2 x y r ih =>
      cases hr : ehPtList r with
      | none => rw [hr] at h; simp at h
      | some q => simpa using ih q hr
  | case3 => simp at h

theorem attrs_antenna (ts : List EhTok) (h : ∀ t ∈ (ehRuleIn (ehMaskIn ts).2).2, t ≠ .kw .antenna) :
    ∀ t ∈ ts, t ≠ .kw .antenna := by
  have h2 : ∀ t ∈ (ehMaskIn ts).2, t ≠ .kw .antenna := by
    generalize (ehMaskIn ts).2 = us at h
    unfold ehRuleIn at h
    split at h
    · simpa using h
    · simpa using h
    · exact h
  unfold ehMaskIn at h2
  split at h2
  · simpa using h2
  · exact h2

theorem boxIn_antenna (ts : List EhTok) (b : Int × Int × Int × Int) (h : ehBoxIn ts = some b) :
    ∀ t ∈ ts, t ≠ .kw .antenna := by
  unfold ehBoxIn at h
  split at h
  · simp
  · cases h

theorem opt_antenna (s q : EhPinSt) (ts : List EhTok) (h : ehPinOpt s ts = some q) :
    ∀ t ∈ ts.tail, t ≠ .kw .antenna := by
  unfold ehPinOpt at h
  split at h
  case h_8 l r =>
      cases hb : ehBoxIn (ehRuleIn (ehMaskIn r).2).2 with
      | none => rw [hb] at h; simp at h
      | some b => simpa using attrs_antenna r (boxIn_antenna _ b hb)
  case h_9 l r =>
      cases hb : ehPtList (ehRuleIn (ehMaskIn r).2).2 with
      | none => rw [hb] at h; simp at h
      | some b => simpa using attrs_antenna r (ptList_antenna _ b hb)
  case h_11 x y o =>
      cases o <;> first | (simp; done) | (simp [ehReadOri] at h)
  case h_12 x y o =>
      cases o <;> first | (simp; done) | (simp [ehReadOri] at h)
  case h_13 x y o =>
      cases o <;> first | (simp; done) | (simp [ehReadOri] at h)
  all_goals first | (simp; done) | (cases h)

theorem antenna_bad (s : EhPinSt) (o r : List EhTok) (ho : o ≠ []) : ehPinOpt s (o ++ .kw .antenna :: r) = none := by
  cases h : ehPinOpt s (o ++ .kw .antenna :: r) with
  | none => rfl
  | some q =>
      have := opt_antenna s q _ h (.kw .antenna)
      cases o with
      | nil => exact absurd rfl ho
      | cons a o => simp at this

theorem pinOpts_ne (p : EhPin) : ∀ o ∈ ehPinOpts p, o ≠ [] := by
  intro o ho
  unfold ehPinOpts at ho
  simp only [List.mem_append] at ho
  have hpl : ∀ l : EhPlace × Int × Int × Int, (ehPinPlace l).tail ≠ [] := by
    intro l; obtain ⟨k, x, y, o⟩ := l; cases k <;> simp [ehPinPlace]
  rcases ho with ((((((((h | h) | h) | h) | h) | h) | h) | h) | h)
  · obtain ⟨b, _, rfl⟩ := List.mem_map.1 h; simp
  · obtain ⟨b, _, rfl⟩ := List.mem_map.1 h; simp
  · obtain ⟨b, _, rfl⟩ := List.mem_map.1 h; simp
  · obtain ⟨b, _, rfl⟩ := List.mem_map.1 h; simp
  · obtain ⟨b, _, rfl⟩ := List.mem_map.1 h; simp
  · split at h
    · cases h
    · simp only [List.mem_append] at h
      rcases h with (h | h) | h <;> obtain ⟨b, _, rfl⟩ := List.mem_map.1 h
      · simp [ehPinBox]
      · simp [ehPinPoly]
      · simp [ehPinVia]
  · obtain ⟨q, _, h⟩ := List.mem_flatMap.1 h
    unfold ehPortOpts at h
    simp only [List.mem_cons, List.mem_append] at h
    rcases h with h | ((h | h) | h) | h
    · subst h; simp
    · obtain ⟨b, _, rfl⟩ := List.mem_map.1 h; simp [ehPortBox]
    · obtain ⟨b, _, rfl⟩ := List.mem_map.1 h; simp [ehPortPoly]
    · obtain ⟨b, _, rfl⟩ := List.mem_map.1 h; simp [ehPortVia]
    · obtain ⟨b, _, rfl⟩ := List.mem_map.1 h; exact hpl b
  · obtain ⟨b, _, rfl⟩ := List.mem_map.1 h; exact hpl b
  · split at h
    · rw [List.mem_singleton] at h; subst h; simp
    · cases h

theorem pin_antenna (p : EhPin) (ha : p.antennas ≠ []) : ehReadPin (ehPin p) = none := by
  obtain ⟨r, hr⟩ : ∃ r, p.antennas.flatMap ehAntenna = .kw .antenna :: r := by
    cases h : p.antennas with
    | nil => exact absurd h ha
    | cons a as => exact ⟨_, by simp [ehAntenna]; rfl⟩
  have hpl := antennas_plain p.antennas
  rw [hr] at hpl
  rw [ehPin_eq, hr, ehReadPin]
  by_cases hn : ehPinOpts p = []
  · rw [hn]
    have : ([EhTok.minus, .word p.name] ++ (([[EhTok.kw .net, .word p.net]].flatMap fun o => .plus :: o) ++
        (.kw .antenna :: r ++ [.semi])))
        = [EhTok.minus, .word p.name] ++ (([[EhTok.kw .net, .word p.net] ++ .kw .antenna :: r].flatMap fun o => .plus :: o)
          ++ [.semi]) := by simp
    rw [this, ehSplit_stmt _ _ (by simp [EhPlainTok]) (by
      intro o ho
      rw [List.mem_singleton] at ho
      subst ho
      intro t ht
      rcases List.mem_append.1 ht with h | h
      · simp at h; rcases h with h | h <;> subst h <;> simp [EhPlainTok]
      · exact hpl t h)]
    rfl
  · obtain ⟨init, last, hil⟩ : ∃ init last, ehPinOpts p = init ++ [last] :=
      ⟨(ehPinOpts p).dropLast, (ehPinOpts p).getLast hn, (List.dropLast_concat_getLast hn).symm⟩
    have hlast : last ∈ ehPinOpts p := by rw [hil]; simp
    have : ([EhTok.minus, .word p.name] ++ ((([EhTok.kw .net, .word p.net] :: ehPinOpts p).flatMap fun o => .plus :: o) ++
        (.kw .antenna :: r ++ [.semi])))
        = [EhTok.minus, .word p.name] ++ ((([EhTok.kw .net, .word p.net] :: (init ++ [last ++ .kw .antenna :: r])).flatMap
          fun o => .plus :: o) ++ [.semi]) := by rw [hil]; simp
    rw [this, ehSplit_stmt _ _ (by simp [EhPlainTok]) (by
      intro o ho
      rcases List.mem_cons.1 ho with h | h
      · subst h; simp [EhPlainTok]
      · rcases List.mem_append.1 h with h | h
        · exact pinOpts_plain p o (by rw [hil]; simp [h])
        · rw [List.mem_singleton] at h
          subst h
          intro t ht
          rcases List.mem_append.1 ht with h | h
          · exact pinOpts_plain p last hlast t h
          · exact hpl t h)]
    simp only [Option.bind_some]
    rw [foldlM_bad _ _ _ (last ++ .kw .antenna :: r) (by simp) (fun t => antenna_bad t _ _ (pinOpts_ne p last hlast))]
    rfl

/-! ## Reading the shapes -/

theorem maskIn_attrs (m : Int) (r : EhRule) (ts : List EhTok) (h : (ehMaskIn ts) = (0, ts)) (h2 : ehRuleIn ts = (.none, ts)) :
    (ehMaskIn (ehAttrs m r ++ ts)).1 = m ∧ ehRuleIn (ehMaskIn (ehAttrs m r ++ ts)).2 = (r, ts) := by
  have a1 : ∀ m r, ehMaskIn (.kw .mask :: .num m :: r) = (m, r) := fun _ _ => rfl
  have a2 : ∀ r, ehMaskIn (.kw .spacing :: r) = (0, .kw .spacing :: r) := fun _ => rfl
  have a3 : ∀ r, ehMaskIn (.kw .designrulewidth :: r) = (0, .kw .designrulewidth :: r) := fun _ => rfl
  have a4 : ∀ v r, ehRuleIn (.kw .spacing :: .num v :: r) = (.spacing v, r) := fun _ _ => rfl
  have a5 : ∀ v r, ehRuleIn (.kw .designrulewidth :: .num v :: r) = (.width v, r) := fun _ _ => rfl
  by_cases hm : m = 0 <;> cases r <;> simp [ehAttrs, hm, a1, a2, a3, a4, a5, h, h2]

theorem box_read (s : EhPinSt) (b : EhBox) : ehPinOpt s (ehPinBox b).tail = some (s.addBox b) := by
  obtain ⟨l, m, r, x1, y1, x2, y2⟩ := b
  have h := maskIn_attrs m r [.lp, .num x1, .num y1, .rp, .lp, .num x2, .num y2, .rp] rfl rfl
  simp only [ehPinBox, List.cons_append, List.nil_append, List.tail_cons, ehPinOpt, h.1, h.2, ehBoxIn, Option.map_some]

theorem portBox_bad (s : EhPinSt) (b : EhBox) : ehPinOpt s (ehPortBox b).tail = none := by
  obtain ⟨l, m, r, x1, y1, x2, y2⟩ := b
  have h := maskIn_attrs m r [.num x1, .num y1, .num x2, .num y2] rfl rfl
  simp only [ehPortBox, List.cons_append, List.nil_append, List.tail_cons, ehPinOpt, h.2, ehBoxIn, Option.map_none]

theorem ptList_pts (ps : List (Int × Int)) : ehPtList (ps.flatMap fun q => [.lp, .num q.1, .num q.2, .rp]) = some ps := by
  induction ps with
  | nil => rfl
  | cons p ps ih => simp [ehPtList, ih]

theorem portPoly_read (s : EhPinSt) (b : EhPoly) (h3 : 3 ≤ b.pts.length) :
    ehPinOpt s (ehPortPoly b).tail = some (s.addPoly b) := by
  obtain ⟨l, m, r, ps⟩ := b
  have hps := ptList_pts ps
  obtain ⟨q, ps', rfl⟩ : ∃ q ps', ps = q :: ps' := by
    cases ps with
    | nil => simp at h3
    | cons q ps => exact ⟨q, ps, rfl⟩
  have h := maskIn_attrs m r ((q :: ps').flatMap fun q => [.lp, .num q.1, .num q.2, .rp]) (by simp [ehMaskIn])
    (by simp [ehRuleIn])
  simp only [ehPortPoly, List.cons_append, List.nil_append, List.tail_cons, ehPinOpt, h.1, h.2, hps, Option.bind_some]
  rw [if_pos h3]

theorem pinPoly_bad (s : EhPinSt) (b : EhPoly) (h3 : 3 ≤ b.pts.length) : ehPinOpt s (ehPinPoly b).tail = none := by
  obtain ⟨l, m, r, ps⟩ := b
  obtain ⟨q, ps', rfl⟩ : ∃ q ps', ps = q :: ps' := by
    cases ps with
    | nil => simp at h3
    | cons q ps => exact ⟨q, ps, rfl⟩
  have h := maskIn_attrs m r ((q :: ps').flatMap fun q => [.num q.1, .num q.2]) (by simp [ehMaskIn]) (by simp [ehRuleIn])
  have hb : ehPtList ((q :: ps').flatMap fun q => [.num q.1, .num q.2]) = none := by simp [ehPtList]
  simp only [ehPinPoly, List.cons_append, List.nil_append, List.tail_cons, ehPinOpt, h.2, hb, Option.bind_none]

theorem place_step (s : EhPinSt) (l : EhPlace × Int × Int × Int) (hl : EhPlaceOk l) :
    ehPinOpt s (ehPinPlace l).tail = some (s.setPlace l) := by
  obtain ⟨k, x, y, o⟩ := l
  obtain ⟨h1, h2, h3⟩ := hl
  have ho := ehReadOri_ori o
  dsimp only at h1 h2 h3
  rw [if_pos ⟨h2, h3⟩] at ho
  cases k
  case unplaced => exact absurd rfl h1
  all_goals simp [ehPinPlace, ehPinOpt, ho]

theorem fold_boxes (bs : List EhBox) (p : EhPin) :
    List.foldlM ehPinOpt { pin := p } (bs.map fun b => (ehPinBox b).tail)
      = some { pin := { p with boxes := p.boxes ++ bs } } := by
  induction bs generalizing p with
  | nil => simp
  | cons b bs ih =>
      simp only [List.map_cons, List.foldlM_cons, box_read, Option.bind_eq_bind, Option.bind_some, EhPinSt.addBox]
      simp only [Bool.false_eq_true, if_false]
      rw [ih]; simp

theorem ehLast_append (f : EhPort → EhPort) (ps : List EhPort) (q : EhPort) : ehLast f (ps ++ [q]) = ps ++ [f q] := by
  induction ps with
  | nil => rfl
  | cons p ps ih =>
      cases ps with
      | nil => rfl
      | cons p' ps => simp only [List.cons_append, ehLast] at *; rw [ih]

theorem fold_ppolys (bs : List EhPoly) (hb : ∀ b ∈ bs, 3 ≤ b.pts.length) (p : EhPin) (done : List EhPort) (q : EhPort) :
    List.foldlM ehPinOpt { pin := { p with ports := done ++ [q] }, open_ := true } (bs.map fun b => (ehPortPoly b).tail)
      = some { pin := { p with ports := done ++ [{ q with polys := q.polys ++ bs }] }, open_ := true } := by
  induction bs generalizing q with
  | nil => simp
  | cons b bs ih =>
      simp only [List.map_cons, List.foldlM_cons, portPoly_read _ b (hb b (by simp)), Option.bind_eq_bind, Option.bind_some,
        EhPinSt.addPoly, if_true, ehLast_append]
      rw [ih (fun b h => hb b (by simp [h]))]; simp

theorem fold_pvias (bs : List (String × Int × Int)) (p : EhPin) (done : List EhPort) (q : EhPort) :
    List.foldlM ehPinOpt { pin := { p with ports := done ++ [q] }, open_ := true } (bs.map fun b => (ehPortVia b).tail)
      = some { pin := { p with ports := done ++ [{ q with vias := q.vias ++ bs }] }, open_ := true } := by
  induction bs generalizing q with
  | nil => simp
  | cons b bs ih =>
      have h1 : ∀ s : EhPinSt, ehPinOpt s (ehPortVia b).tail = some (s.addVia b) := fun s => rfl
      simp only [List.map_cons, List.foldlM_cons, h1, Option.bind_eq_bind, Option.bind_some,
        EhPinSt.addVia, if_true, ehLast_append]
      rw [ih]; simp

theorem fold_port (q : EhPort) (hb : q.boxes = []) (hp : ∀ b ∈ q.polys, 3 ≤ b.pts.length) (hl : ∀ l ∈ q.place, EhPlaceOk l)
    (p : EhPin) (done : List EhPort) (h : Bool) :
    List.foldlM ehPinOpt { pin := { p with ports := done }, open_ := h } (ehPortOpts q)
      = some { pin := { p with ports := done ++ [q] }, open_ := q.place.isNone } := by
  obtain ⟨boxes, polys, vias, place⟩ := q
  dsimp only at hb hp hl
  subst hb
  have h1 : ehPinOpt { pin := { p with ports := done }, open_ := h } [.kw .port]
      = some { pin := { p with ports := done ++ [{}] }, open_ := true } := rfl
  simp only [ehPortOpts, List.map_nil, List.nil_append, List.foldlM_cons, h1, Option.bind_eq_bind, Option.bind_some,
    foldlM_append', fold_ppolys polys hp, fold_pvias]
  cases place with
  | none => rfl
  | some l =>
      simp only [Option.toList_some, List.map_cons, List.map_nil, List.foldlM_cons, place_step _ l (hl l rfl),
        Option.bind_eq_bind, Option.bind_some, List.foldlM_nil, EhPinSt.setPlace, if_true, ehLast_append]
      rfl

theorem fold_ports (qs : List EhPort) (hq : ∀ q ∈ qs, q.boxes = [] ∧ (∀ l ∈ q.place, EhPlaceOk l) ∧
      ∀ b ∈ q.polys, 3 ≤ b.pts.length) (p : EhPin) (done : List EhPort) (h : Bool) :
    List.foldlM ehPinOpt { pin := { p with ports := done }, open_ := h } (qs.flatMap ehPortOpts)
      = some { pin := { p with ports := done ++ qs }, open_ := qs.foldl (fun _ q => q.place.isNone) h } := by
  induction qs generalizing done h with
  | nil => simp
  | cons q qs ih =>
      obtain ⟨h1, h2, h3⟩ := hq q (by simp)
      rw [List.flatMap_cons, foldlM_append', fold_port q h1 h3 h2, Option.bind_some, ih (fun q h => hq q (by simp [h]))]
      simp

theorem foldl_last {α : Type} (f : α → Bool) (l : List α) (h : Bool) :
    l.foldl (fun _ q => f q) h = (l.getLast?.map f).getD h := by
  induction l generalizing h with
  | nil => rfl
  | cons a l ih =>
      rw [List.foldl_cons, ih, List.getLast?_cons]
      cases l.getLast? <;> rfl

theorem pin_readable (p : EhPin) (hok : p.Ok) (hr : p.Readable) : ehReadPin (ehPin p) = some p.echoed := by
  obtain ⟨r1, r2, r3, r4⟩ := hr
  obtain ⟨o1, o2, o3⟩ := hok
  rw [ehReadPin_eq p r4]
  obtain ⟨name, net, dir, use, netExpr, supply, ground, boxes, polys, vias, ports, place, special, antennas⟩ := p
  dsimp only at r1 r2 r3 r4 o1 o2 o3
  subst r1 r4
  have key : List.foldlM ehPinOpt { pin := { name := name, net := net } }
      (ehPinOpts { name := name, net := net, dir := dir, use := use, netExpr := netExpr, supply := supply,
                   ground := ground, boxes := boxes, vias := vias, ports := ports, place := place, special := special })
      = some { pin := EhPin.echoed
                 { name := name, net := net, dir := dir, use := use, netExpr := netExpr, supply := supply,
                   ground := ground, boxes := boxes, vias := vias, ports := ports, place := place, special := special },
               open_ := (ports.getLast?.any fun q => q.place.isNone) && !place.isSome } := by
    unfold ehPinOpts
    dsimp only
    simp only [foldlM_append', List.map_nil]
    rw [fold_one ehPinOpt dir _ (fun o => { pin := { name := name, net := net, dir := o } }) (fun v => rfl),
      Option.bind_some]
    rw [fold_one ehPinOpt use _ (fun o => { pin := { name := name, net := net, dir := dir, use := o } }) (fun v => rfl),
      Option.bind_some]
    rw [fold_one ehPinOpt netExpr _ (fun o =>
        { pin := { name := name, net := net, dir := dir, use := use, netExpr := o } }) (fun v => rfl), Option.bind_some]
    rw [fold_one ehPinOpt supply _ (fun o =>
        { pin := { name := name, net := net, dir := dir, use := use, netExpr := netExpr, supply := o } }) (fun v => rfl),
      Option.bind_some]
    rw [fold_one ehPinOpt ground _ (fun o =>
        { pin := { name := name, net := net, dir := dir, use := use, netExpr := netExpr, supply := supply, ground := o } })
        (fun v => rfl), Option.bind_some]
    have hsh : List.foldlM ehPinOpt
        { pin :=
          { name := name, net := net, dir := dir, use := use, netExpr := netExpr, supply := supply, ground := ground } }
        (if boxes = [] ∧ True then []
         else boxes.map (fun b => (ehPinBox b).tail) ++ [] ++ vias.map (fun v => (ehPinVia v).tail))
        = some
          { pin :=
            { name := name, net := net, dir := dir, use := use, netExpr := netExpr, supply := supply, ground := ground,
              boxes := boxes } } := by
      by_cases hb : boxes = []
      · subst hb; rfl
      · have hv : vias = [] := by rcases r2 with h | h; exact absurd h hb; exact h
        rw [if_neg (fun h => hb h.1), hv, List.map_nil, List.append_nil, List.append_nil, fold_boxes]
        simp
    rw [hsh, Option.bind_some]
    have := fold_ports ports (fun q h => ⟨r3 q h, (o3 q h).1, (o3 q h).2⟩)
      { name := name, net := net, dir := dir, use := use, netExpr := netExpr, supply := supply, ground := ground,
        boxes := boxes } [] false
    dsimp only at this
    rw [this, foldl_last, Option.bind_some, List.nil_append]
    have hsp : ∀ s : EhPinSt, s.pin.special = false →
        List.foldlM ehPinOpt s (if special then [[.kw .special]] else [])
          = some { s with pin := { s.pin with special := special } } := by
      intro s hs
      cases special with
      | true => rfl
      | false => obtain ⟨⟨_⟩, _⟩ := s; dsimp only at hs; subst hs; rfl
    cases place with
    | none =>
        simp only [Option.toList_none, List.map_nil, List.foldlM_nil, pure, Option.bind_some]
        rw [hsp _ rfl]
        unfold EhPin.echoed EhPin.moves
        simp only [Option.isSome_none, Bool.false_and, Bool.false_eq_true, if_false, Bool.not_false, Bool.and_true]
        cases ports.getLast? <;> rfl
    | some l =>
        simp only [Option.toList_some, List.map_cons, List.map_nil, List.foldlM_cons, place_step _ l (o1 l rfl),
          Option.bind_eq_bind, Option.bind_some, List.foldlM_nil, pure]
        unfold EhPin.echoed EhPin.moves EhPinSt.setPlace
        simp only [Option.isSome_some, Bool.true_and, Bool.not_true, Bool.and_false]
        cases hg : ports.getLast? with
        | none =>
            simp only [Option.map_none, Option.getD_none, Bool.false_eq_true, if_false, Option.any_none]
            rw [hsp _ rfl]
        | some q =>
            simp only [Option.map_some, Option.getD_some, Option.any_some]
            by_cases hq : q.place.isNone = true
            · simp only [hq, if_true]; rw [hsp _ rfl]
            · simp only [hq, if_false, Bool.false_eq_true]; rw [hsp _ rfl]
  rw [key]
  rfl

theorem pin_unreadable (p : EhPin) (hok : p.Ok) (hr : ¬ p.Readable) : ehReadPin (ehPin p) = none := by
  by_cases ha : p.antennas = []
  · rw [ehReadPin_eq p ha]
    have key : ∃ o ∈ ehPinOpts p, ∀ t, ehPinOpt t o = none := by
      apply Classical.byContradiction
      intro hno
      have hb : ∀ o ∈ ehPinOpts p, ¬ ∀ t, ehPinOpt t o = none := fun o ho h => hno ⟨o, ho, h⟩
      refine hr ⟨?_, ?_, ?_, ha⟩
      · cases hv : p.polys with
        | nil => rfl
        | cons v vs =>
            refine (hb (ehPinPoly v).tail ?_ (fun t => pinPoly_bad t v (hok.2.1 v (by rw [hv]; simp)))).elim
            unfold ehPinOpts; rw [hv]; simp
      · by_cases hbx : p.boxes = []
        · exact .inl hbx
        · right
          cases hv : p.vias with
          | nil => rfl
          | cons v vs =>
              refine (hb (ehPinVia v).tail ?_ (fun t => rfl)).elim
              unfold ehPinOpts; rw [if_neg (fun h => hbx h.1), hv]; simp
      · intro q hq
        cases hv : q.boxes with
        | nil => rfl
        | cons b bs =>
            refine (hb (ehPortBox b).tail ?_ (fun t => portBox_bad t b)).elim
            have h1 : (ehPortBox b).tail ∈ ehPortOpts q := by unfold ehPortOpts; rw [hv]; simp
            have h2 : (ehPortBox b).tail ∈ p.ports.flatMap ehPortOpts := List.mem_flatMap.2 ⟨q, hq, h1⟩
            unfold ehPinOpts
            simp only [List.mem_append]
            simp [h2]
    obtain ⟨o, ho, h⟩ := key
    rw [foldlM_bad _ _ _ o ho h]; rfl
  · exact pin_antenna p ha

open Classical in
/-- C189: what is written for a pin is read back as that pin, without the vias of a pin that has no rectangles, and with
its placement given to the last port if that one has none; it is no statement of DEF at all exactly when a polygon stands
outside a port, a via stands beside rectangles, a port has a rectangle, or there is an antenna option. -/
theorem c189_pin_partial (p : EhPin) (hok : p.Ok) :
    ehReadPin (ehPin p) = if p.Readable then some p.echoed else none := by
  split
  · next h => exact pin_readable p hok h
  · next h => exact pin_unreadable p hok h

/-- C189: a pin with rectangles and a placement and nothing but a direction, a use and the like — no ports, polygons,
vias and antenna options — is written back exactly. -/
theorem c189_plain (p : EhPin) (hok : p.Ok) (h1 : p.ports = []) (h2 : p.polys = []) (h3 : p.vias = [])
    (h4 : p.antennas = []) : ehReadPin (ehPin p) = some p := by
  rw [pin_readable p hok ⟨h2, .inr h3, by rw [h1]; simp, h4⟩]
  obtain ⟨name, net, dir, use, netExpr, supply, ground, boxes, polys, vias, ports, place, special, antennas⟩ := p
  dsimp only at h1 h2 h3 h4
  subst h1 h2 h3 h4
  simp [EhPin.echoed, EhPin.moves]

/-- C189 fails: a placement of the pin is read back as that of its port. -/
theorem c189_moved : ∃ p q : EhPin, p.Ok ∧ ehReadPin (ehPin p) = some q ∧ p.place = some (.placed, 100, 200, 0) ∧
    q.place = none ∧ q.ports.map (·.place) = [some (.placed, 100, 200, 0)] :=
  ⟨{ name := "a", net := "n", ports := [{ vias := [("V12", 0, 0)] }], place := some (.placed, 100, 200, 0) },
   { name := "a", net := "n", ports := [{ vias := [("V12", 0, 0)], place := some (.placed, 100, 200, 0) }] },
   by simp [EhPin.Ok, EhPlaceOk], by decide +kernel, rfl, rfl, by decide +kernel⟩

/-- C189 fails: a pin whose shape stands in a port is written as something that is no DEF. -/
theorem c189_port (p : EhPin) (q : EhPort) (hq : q ∈ p.ports) (b : EhBox) (hb : b ∈ q.boxes) (hok : p.Ok) :
    ehReadPin (ehPin p) = none := by
  apply pin_unreadable p hok
  intro h
  rw [h.2.2.1 q hq] at hb
  cases hb

/-- a pin with two rectangles, a rule and a placement -/
def exEhPin : EhPin :=
  { name := "clk", net := "clk", dir := some "INPUT", use := some "CLOCK", netExpr := some "power1 VDD",
    boxes := [{ layer := "M3", box := (0, 0, 60, 500) }, { layer := "M4", mask := 2, rule := .spacing 50, box := (0, 0, 9, 9) }],
    place := some (.fixed, 1000, 0, 5), special := true }

example : exEhPin.Ok ∧ ehReadPin (ehPin exEhPin) = some exEhPin := by
  refine ⟨by simp [EhPin.Ok, exEhPin, EhPlaceOk], by decide +kernel⟩

/-- the grammar accepts a port with a rectangle and an antenna option when they are written as DEF says -/
example : ehReadPin [.minus, .word "a", .plus, .kw .net, .word "n", .plus, .kw .port, .plus, .kw .layer, .word "M1", .lp,
    .num 0, .num 0, .rp, .lp, .num 5, .num 5, .rp, .plus, .kw .placed, .lp, .num 1, .num 2, .rp, .ori .n, .plus,
    .kw .antenna, .num 4, .kw .layer, .word "M1", .semi]
    = some { name := "a", net := "n",
             ports := [{ boxes := [{ layer := "M1", box := (0, 0, 5, 5) }], place := some (.placed, 1, 2, 0) }],
             antennas := [(4, some "M1")] } := by
  decide +kernel

end TR
