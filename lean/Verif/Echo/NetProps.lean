import Verif.Echo.NetSpec
import Verif.Echo.Lemmas
import Verif.Echo.NumLemmas
import Verif.Echo.CompProps
import Verif.Def.Props

/-!
# C187: nets are written back as they were read, with the routes of the router
-/

namespace TR

/-- nets that are written in the syntax of DEF: no connection is synthesized, there is no virtual pin, and every
property is a real number -/
def EhNet.Readable (n : EhNet) : Prop :=
  (∀ c ∈ n.conns, c.2.2 = false) ∧ n.vpins = [] ∧ ∀ p ∈ n.props, p.2.2 = .r

/-- the value of a real property; text counts as 0 -/
def ehRealOf : EhVal → Int
  | .num v => v
  | .str _ => 0

/-- the net that is described by what is written: the routes are those of the router, capacitance, frequency and
properties have six digits (a real property that was given as text is 0), `XTALK` and `STYLE` are gone -/
def EhNet.echoed (routes : List (List PathTok)) (n : EhNet) : EhNet :=
  { n with
    routes := routes
    cap := n.cap.map ehG
    frequency := n.frequency.map ehG
    props := n.props.map fun p => (p.1, .num (ehG (ehRealOf p.2.1)), p.2.2)
    xtalk := none
    style := none }

/-- the options of a net in the order in which they are written -/
def ehNetOpts (routes : List (List PathTok)) (n : EhNet) : List (List EhTok) :=
  (if routes = [] then [] else [(ehRoutes routes).tail])
  ++ n.ndr.toList.map (fun s => [.kw .nondefaultrule, .word s])
  ++ n.vpins.map (fun v => (ehVpin v).tail)
  ++ n.shields.map (fun s => [.kw .shieldnet, .word s])
  ++ n.props.map (fun p => (ehNetProp p).tail)
  ++ n.weight.toList.map (fun w => [.kw .weight, .num w])
  ++ n.cap.toList.map (fun c => [.kw .estcap, .num (ehG c)])
  ++ n.source.toList.map (fun s => [.kw .source, .word s])
  ++ (if n.fixedbump then [[.kw .fixedbump]] else [])
  ++ n.frequency.toList.map (fun f => [.kw .frequency, .num (ehG f)])
  ++ n.pattern.toList.map (fun s => [.kw .pattern, .word s])
  ++ n.original.toList.map (fun s => [.kw .original, .word s])
  ++ n.use.toList.map (fun s => [.kw .use, .word s])

theorem ehNet_eq (routes : List (List PathTok)) (n : EhNet) :
    ehNet routes n = .minus :: .word n.name :: (ehConns n.conns ++
      ((ehNetOpts routes n).flatMap (fun o => .plus :: o) ++ [.semi])) := by
  unfold ehNet ehNetOpts
  simp only [List.flatMap_append, flatMap_map', List.append_assoc, List.cons_append, List.nil_append]
  congr 3
  congr 1
  · cases routes with
    | nil => rfl
    | cons r rs => rw [if_neg (by simp), flatMap_one]; rfl
  congr 1
  · cases n.ndr <;> rfl
  congr 1
  congr 1
  congr 1
  congr 1
  · cases n.weight <;> rfl
  congr 1
  · cases n.cap <;> rfl
  congr 1
  · cases n.source <;> rfl
  congr 1
  · cases n.fixedbump <;> rfl
  congr 1
  · cases n.frequency <;> rfl
  congr 1
  · cases n.pattern <;> rfl
  congr 1
  · cases n.original <;> rfl
  congr 1
  cases n.use <;> rfl

theorem ehRoutes_plain (rs : List (List PathTok)) : ∀ t ∈ (ehRoutes rs).tail, EhPlainTok t := by
  cases rs with
  | nil => intro t ht; cases ht
  | cons r rs =>
      intro t ht
      simp only [ehRoutes, List.cons_append, List.nil_append, List.tail_cons, List.mem_cons, List.mem_append, List.mem_map,
        List.mem_flatMap] at ht
      rcases ht with h | ⟨p, _, h⟩ | ⟨q, _, h | ⟨p, _, h⟩⟩
      · subst h; simp [EhPlainTok]
      · subst h; simp [EhPlainTok]
      · subst h; simp [EhPlainTok]
      · subst h; simp [EhPlainTok]

theorem ehVpin_plain (v : EhVpin) : ∀ t ∈ (ehVpin v).tail, EhPlainTok t := by
  obtain ⟨name, layer, box, loc⟩ := v
  intro t ht
  rcases layer with _ | l <;> rcases loc with _ | ⟨s, x, y, o⟩ <;>
    simp only [ehVpin, List.cons_append, List.nil_append, List.append_nil, List.tail_cons, List.mem_cons,
      List.not_mem_nil, or_false, List.append_assoc] at ht
  · rcases ht with h | h | h | h | h <;> subst h <;> simp [EhPlainTok]
  · have ho := ehOri_plain o
    rcases ht with h | h | h | h | h | h | h | h | h
    all_goals first
      | (subst h; simp [EhPlainTok]; done)
      | (split at h
         · rw [List.mem_singleton] at h; subst h; exact ho
         · cases h)
  · rcases ht with h | h | h | h | h | h <;> subst h <;> simp [EhPlainTok]
  · have ho := ehOri_plain o
    rcases ht with h | h | h | h | h | h | h | h | h | h
    all_goals first
      | (subst h; simp [EhPlainTok]; done)
      | (split at h
         · rw [List.mem_singleton] at h; subst h; exact ho
         · cases h)

theorem ehNetProp_plain (p : String × EhVal × EhPT) : ∀ t ∈ (ehNetProp p).tail, EhPlainTok t := by
  obtain ⟨n, v, k⟩ := p
  have hv := ehVal_plain v
  intro t ht
  cases k <;> simp only [ehNetProp, List.cons_append, List.nil_append, List.tail_cons, List.mem_cons,
      List.not_mem_nil, or_false] at ht
  · rcases ht with h | h | h <;> subst h <;> simp [EhPlainTok]
  · rcases ht with h | h | h | h <;> subst h <;> simp [EhPlainTok]
  · rcases ht with h | h | h | h <;> subst h <;> first | exact hv | simp [EhPlainTok]
  · rcases ht with h | h | h | h <;> subst h <;> first | exact hv | simp [EhPlainTok]
  · rcases ht with h | h | h | h <;> subst h <;> simp [EhPlainTok]

theorem ehNetOpts_plain (routes : List (List PathTok)) (n : EhNet) :
    ∀ o ∈ ehNetOpts routes n, ∀ t ∈ o, EhPlainTok t := by
  intro o ho
  unfold ehNetOpts at ho
  simp only [List.mem_append] at ho
  rcases ho with ((((((((((((h | h) | h) | h) | h) | h) | h) | h) | h) | h) | h) | h) | h)
  · split at h
    · cases h
    · rw [List.mem_singleton] at h; subst h; exact ehRoutes_plain routes
  · obtain ⟨b, _, rfl⟩ := List.mem_map.1 h; simp [EhPlainTok]
  · obtain ⟨b, _, rfl⟩ := List.mem_map.1 h; exact ehVpin_plain b
  · obtain ⟨b, _, rfl⟩ := List.mem_map.1 h; simp [EhPlainTok]
  · obtain ⟨b, _, rfl⟩ := List.mem_map.1 h; exact ehNetProp_plain b
  · obtain ⟨b, _, rfl⟩ := List.mem_map.1 h; simp [EhPlainTok]
  · obtain ⟨b, _, rfl⟩ := List.mem_map.1 h; simp [EhPlainTok]
  · obtain ⟨b, _, rfl⟩ := List.mem_map.1 h; simp [EhPlainTok]
  · split at h
    · rw [List.mem_singleton] at h; subst h; simp [EhPlainTok]
    · cases h
  · obtain ⟨b, _, rfl⟩ := List.mem_map.1 h; simp [EhPlainTok]
  · obtain ⟨b, _, rfl⟩ := List.mem_map.1 h; simp [EhPlainTok]
  · obtain ⟨b, _, rfl⟩ := List.mem_map.1 h; simp [EhPlainTok]
  · obtain ⟨b, _, rfl⟩ := List.mem_map.1 h; simp [EhPlainTok]

/-- options end the connections -/
def EhOptsBegin (ts : List EhTok) : Prop := ∀ t ∈ ts.head?, t = .plus ∨ t = .semi

theorem ehConnsIn_stop (ts : List EhTok) (h : EhOptsBegin ts) : ehConnsIn ts = ([], ts) := by
  cases ts with
  | nil => rfl
  | cons t r => rcases h t (by simp) with h | h <;> subst h <;> rfl

theorem ehConnsIn_conns (cs : List (String × String × Bool)) (hc : ∀ c ∈ cs, c.2.2 = false) (ts : List EhTok)
    (h : EhOptsBegin ts) : ehConnsIn (ehConns cs ++ ts) = (cs, ts) := by
  induction cs with
  | nil => exact ehConnsIn_stop ts h
  | cons c cs ih =>
      obtain ⟨i, p, s⟩ := c
      have hs : s = false := hc (i, p, s) (by simp)
      subst hs
      have ih := ih (fun c h => hc c (by simp [h]))
      have : ehConns ((i, p, false) :: cs) ++ ts = .lp :: .word i :: .word p :: .rp :: (ehConns cs ++ ts) := by
        simp [ehConns]
      rw [this, ehConnsIn, ih]

theorem opts_begin (os : List (List EhTok)) : EhOptsBegin (os.flatMap (fun o => .plus :: o) ++ [.semi]) := by
  cases os with
  | nil => intro t ht; simp at ht; right; exact ht.symm
  | cons o os => intro t ht; simp at ht; left; exact ht.symm

theorem ehReadNet_eq (ptype : String → Option EhPT) (routes : List (List PathTok)) (n : EhNet)
    (hc : ∀ c ∈ n.conns, c.2.2 = false) : ehReadNet ptype (ehNet routes n) =
      (ehNetOpts routes n).foldlM (ehNetOpt ptype) { name := n.name, conns := n.conns } := by
  rw [ehNet_eq, ehReadNet, ehConnsIn_conns _ hc _ (opts_begin _), ehSplit_opts _ (ehNetOpts_plain routes n)]
  simp

theorem ehSplit_synth (r : List EhTok) : ∀ h os, ehSplit (.plus :: .kw .synthesized :: r) = some (h, os) →
    h = [] ∧ ∃ o ∈ os, ∃ q, o = .kw .synthesized :: q := by
  intro h os hs
  simp only [ehSplit] at hs
  cases hr : ehSplit r with
  | none => rw [hr] at hs; simp at hs
  | some p =>
      rw [hr] at hs
      simp only [Option.map_some, Option.some.injEq, Prod.mk.injEq] at hs
      exact ⟨hs.1.symm, .kw .synthesized :: p.1, by rw [← hs.2]; simp, p.1, rfl⟩

theorem synth_key (cs : List (String × String × Bool)) (hc : ¬ ∀ c ∈ cs, c.2.2 = false) (ts : List EhTok) :
    ∃ as q, ehConnsIn (ehConns cs ++ ts) = (as, .plus :: .kw .synthesized :: q) := by
  induction cs with
  | nil => exact absurd (by simp) hc
  | cons c cs ih =>
      obtain ⟨i, p, s⟩ := c
      cases s with
      | true =>
          have : ehConns ((i, p, true) :: cs) ++ ts
              = .lp :: .word i :: .word p :: .rp :: .plus :: .kw .synthesized :: (ehConns cs ++ ts) := by
            simp [ehConns]
          rw [this, ehConnsIn, ehConnsIn_stop]
          · exact ⟨_, _, rfl⟩
          · intro t ht; simp at ht; left; exact ht.symm
      | false =>
          obtain ⟨as, q, h⟩ := ih (fun h => hc (by
            intro c hm
            rcases List.mem_cons.1 hm with rfl | hm
            · rfl
            · exact h c hm))
          have : ehConns ((i, p, false) :: cs) ++ ts = .lp :: .word i :: .word p :: .rp :: (ehConns cs ++ ts) := by
            simp [ehConns]
          rw [this, ehConnsIn, h]
          exact ⟨_, _, rfl⟩

theorem synth_bad (ptype : String → Option EhPT) (cs : List (String × String × Bool)) (hc : ¬ ∀ c ∈ cs, c.2.2 = false)
    (name : String) (ts : List EhTok) : ehReadNet ptype (.minus :: .word name :: (ehConns cs ++ ts)) = none := by
  obtain ⟨as, q, h⟩ := synth_key cs hc ts
  rw [ehReadNet, h]
  cases hs : ehSplit (.plus :: .kw .synthesized :: q) with
  | none => rfl
  | some p =>
      obtain ⟨h1, o, ho, x, rfl⟩ := ehSplit_synth q p.1 p.2 hs
      simp only [Option.bind_some, h1, if_true]
      exact foldlM_bad _ _ _ _ ho (fun t => rfl)

theorem ehPaths_paths (cur : List PathTok) (r : List PathTok) (ts : List EhTok) :
    ehPaths cur (r.map .path ++ ts) = ehPaths (cur ++ r) ts := by
  induction r generalizing cur with
  | nil => simp
  | cons p r ih => simp [ehPaths, ih]

theorem ehPaths_all (r : List PathTok) (rs : List (List PathTok)) (hr : r ≠ []) (hrs : ∀ q ∈ rs, q ≠ []) :
    ehPaths [] (r.map .path ++ rs.flatMap (fun q => .kw .new :: q.map .path)) = some (r :: rs) := by
  induction rs generalizing r with
  | nil => rw [ehPaths_paths]; simp [ehPaths, hr]
  | cons q rs ih =>
      rw [ehPaths_paths, List.flatMap_cons, List.cons_append, List.nil_append, ehPaths, if_neg hr]
      rw [ih q (hrs q (by simp)) (fun x hx => hrs x (by simp [hx]))]
      rfl

/-- an option that is there or not -/
theorem fold_one {σ α : Type} (rd : σ → List EhTok → Option σ) (o : Option α) (f : α → List EhTok)
    (set : Option α → σ) (h : ∀ v, rd (set none) (f v) = some (set (some v))) :
    List.foldlM rd (set none) (o.toList.map f) = some (set o) := by
  cases o with
  | none => rfl
  | some v => simp [h v]

theorem fold_shields (ptype : String → Option EhPT) (ss : List String) (n : EhNet) :
    List.foldlM (ehNetOpt ptype) n (ss.map fun s => [.kw .shieldnet, .word s])
      = some { n with shields := n.shields ++ ss } := by
  induction ss generalizing n with
  | nil => simp
  | cons s ss ih => simp [ehNetOpt, ih]

theorem fold_props (ptype : String → Option EhPT) (ps : List (String × EhVal × EhPT)) (n : EhNet)
    (hr : ∀ p ∈ ps, p.2.2 = .r) (ht : ∀ p ∈ ps, ptype p.1 = some p.2.2) :
    List.foldlM (ehNetOpt ptype) n (ps.map fun p => (ehNetProp p).tail)
      = some { n with props := n.props ++ ps.map fun p =>
          (p.1, .num (ehG (ehRealOf p.2.1)), p.2.2) } := by
  induction ps generalizing n with
  | nil => simp
  | cons p ps ih =>
      obtain ⟨m, v, k⟩ := p
      have hk : k = .r := hr (m, v, k) (by simp)
      subst hk
      have hp : ptype m = some .r := ht (m, v, .r) (by simp)
      have h1 : ehNetOpt ptype n (ehNetProp (m, v, .r)).tail
          = some { n with props := n.props ++ [(m, .num (ehG (ehRealOf v)), .r)] } := by
        simp only [ehNetProp, List.cons_append, List.nil_append, List.tail_cons, ehNetOpt, ehPairs]
        cases v <;> simp [hp, EhVal.number, ehRealOf]
      simp only [List.map_cons, List.foldlM_cons, h1, Option.bind_eq_bind, Option.bind_some]
      rw [ih _ (fun p h => hr p (by simp [h])) (fun p h => ht p (by simp [h]))]
      simp

theorem net_readable (ptype : String → Option EhPT) (routes : List (List PathTok)) (n : EhNet) (hn : n.Readable)
    (hr : ∀ r ∈ routes, r ≠ []) (ht : ∀ p ∈ n.props, ptype p.1 = some p.2.2) :
    ehReadNet ptype (ehNet routes n) = some (n.echoed routes) := by
  obtain ⟨hc, hv, hp⟩ := hn
  rw [ehReadNet_eq _ _ _ hc]
  obtain ⟨name, conns, ndr, vpins, shields, props, weight, cap, source, fixedbump, frequency, pattern, original, use,
    xtalk, style, wires⟩ := n
  simp only at hv hp ht
  subst hv
  unfold ehNetOpts EhNet.echoed
  simp only [foldlM_append', List.map_nil]
  have e0 : List.foldlM (ehNetOpt ptype) { name := name, conns := conns }
      (if routes = [] then [] else [(ehRoutes routes).tail])
      = some { name := name, conns := conns, routes := routes } := by
    cases routes with
    | nil => rfl
    | cons r rs =>
        have := ehPaths_all r rs (hr r (by simp)) (fun q h => hr q (by simp [h]))
        rw [if_neg (by simp)]
        simp [ehRoutes, ehNetOpt, this]
  rw [e0]; simp only [Option.bind_some]
  rw [fold_one (ehNetOpt ptype) ndr _ (fun o =>
      { name := name, conns := conns, routes := routes, ndr := o })
    (fun v => rfl)]
  simp only [Option.bind_some, List.foldlM_nil, pure]
  rw [fold_shields, Option.bind_some, fold_props _ _ _ hp ht, Option.bind_some]
  simp only [List.nil_append]
  generalize hps : (props.map fun p => (p.1, EhVal.num (ehG (ehRealOf p.2.1)), p.2.2)) = ps
  rw [fold_one (ehNetOpt ptype) weight _ (fun o =>
      { name := name, conns := conns, routes := routes, ndr := ndr, shields := shields, props := ps,
        weight := o }) (fun v => rfl), Option.bind_some]
  have e2 : ∀ (s : Option Int → EhNet) (h : ∀ v, ehNetOpt ptype (s none) [.kw .estcap, .num v] = some (s (some v))),
      List.foldlM (ehNetOpt ptype) (s none) (cap.toList.map fun c => [.kw .estcap, .num (ehG c)])
        = some (s (cap.map ehG)) := by
    intro s h; cases cap <;> simp [h]
  rw [e2 (fun o =>
      { name := name, conns := conns, routes := routes, ndr := ndr, shields := shields, props := ps,
        weight := weight, cap := o }) (fun v => rfl), Option.bind_some]
  rw [fold_one (ehNetOpt ptype) source _ (fun o =>
      { name := name, conns := conns, routes := routes, ndr := ndr, shields := shields, props := ps,
        weight := weight, cap := cap.map ehG, source := o }) (fun v => rfl),
    Option.bind_some]
  have e3 : ∀ (s : Bool → EhNet) (h : ehNetOpt ptype (s false) [.kw .fixedbump] = some (s true)),
      List.foldlM (ehNetOpt ptype) (s false) (if fixedbump then [[.kw .fixedbump]] else []) = some (s fixedbump) := by
    intro s h; cases fixedbump <;> simp [h]
  rw [e3 (fun o =>
      { name := name, conns := conns, routes := routes, ndr := ndr, shields := shields, props := ps,
        weight := weight, cap := cap.map ehG, source := source, fixedbump := o }) rfl,
    Option.bind_some]
  have e4 : ∀ (s : Option Int → EhNet) (h : ∀ v, ehNetOpt ptype (s none) [.kw .frequency, .num v] = some (s (some v))),
      List.foldlM (ehNetOpt ptype) (s none) (frequency.toList.map fun c => [.kw .frequency, .num (ehG c)])
        = some (s (frequency.map ehG)) := by
    intro s h; cases frequency <;> simp [h]
  rw [e4 (fun o =>
      { name := name, conns := conns, routes := routes, ndr := ndr, shields := shields, props := ps,
        weight := weight, cap := cap.map ehG, source := source, fixedbump := fixedbump, frequency := o }) (fun v => rfl),
    Option.bind_some]
  rw [fold_one (ehNetOpt ptype) pattern _ (fun o =>
      { name := name, conns := conns, routes := routes, ndr := ndr, shields := shields, props := ps,
        weight := weight, cap := cap.map ehG, source := source, fixedbump := fixedbump,
        frequency := frequency.map ehG, pattern := o }) (fun v => rfl), Option.bind_some]
  rw [fold_one (ehNetOpt ptype) original _ (fun o =>
      { name := name, conns := conns, routes := routes, ndr := ndr, shields := shields, props := ps,
        weight := weight, cap := cap.map ehG, source := source, fixedbump := fixedbump,
        frequency := frequency.map ehG, pattern := pattern, original := o }) (fun v => rfl), Option.bind_some]
  rw [fold_one (ehNetOpt ptype) use _ (fun o =>
      { name := name, conns := conns, routes := routes, ndr := ndr, shields := shields, props := ps,
        weight := weight, cap := cap.map ehG, source := source, fixedbump := fixedbump,
        frequency := frequency.map ehG, pattern := pattern, original := original, use := o }) (fun v => rfl)]

theorem net_unreadable (ptype : String → Option EhPT) (routes : List (List PathTok)) (n : EhNet) (hn : ¬ n.Readable) :
    ehReadNet ptype (ehNet routes n) = none := by
  by_cases hc : ∀ c ∈ n.conns, c.2.2 = false
  · rw [ehReadNet_eq _ _ _ hc]
    have key : ∃ o ∈ ehNetOpts routes n, ∀ t, ehNetOpt ptype t o = none := by
      apply Classical.byContradiction
      intro hno
      have hb : ∀ o ∈ ehNetOpts routes n, ¬ ∀ t, ehNetOpt ptype t o = none := fun o ho h => hno ⟨o, ho, h⟩
      refine hn ⟨hc, ?_, ?_⟩
      · cases hv : n.vpins with
        | nil => rfl
        | cons v vs =>
            exact (hb (ehVpin v).tail (by unfold ehNetOpts; rw [hv]; simp) (fun t => rfl)).elim
      · intro p hp
        obtain ⟨m, v, k⟩ := p
        have hmem : (ehNetProp (m, v, k)).tail ∈ ehNetOpts routes n := by
          unfold ehNetOpts
          simp only [List.mem_append]
          have : (ehNetProp (m, v, k)).tail ∈ n.props.map (fun p => (ehNetProp p).tail) :=
            List.mem_map.2 ⟨_, hp, rfl⟩
          simp [this]
        cases k with
        | r => rfl
        | i => exact (hb _ hmem (fun t => by simp [ehNetProp, ehNetOpt, ehPairs])).elim
        | n => exact (hb _ hmem (fun t => by simp [ehNetProp, ehNetOpt, ehPairs])).elim
        | s => exact (hb _ hmem (fun t => by cases v <;> simp [ehNetProp, ehNetOpt, ehPairs, EhVal.tok])).elim
        | q => exact (hb _ hmem (fun t => by cases v <;> simp [ehNetProp, ehNetOpt, ehPairs, EhVal.tok])).elim
    obtain ⟨o, ho, h⟩ := key
    exact foldlM_bad _ _ _ o ho h
  · rw [ehNet_eq]
    exact synth_bad ptype n.conns hc n.name _

theorem writeNet_nonempty (T : DefTech) (isTA : Bool) (nets : List ONet) (name : String) :
    ∀ r ∈ writeNet T isTA nets name, r ≠ [] := by
  intro r hr
  obtain ⟨f, _, rfl⟩ := List.mem_map.1 hr
  cases f <;> simp [writeFig]

open Classical in
/-- C187: what is written for a net of the reference file is read back as that net with the routes that the router
gave it, with capacitance, frequency and properties of six digits and without `XTALK` and `STYLE`; it is no statement of
DEF at all exactly when a connection is synthesized, there is a virtual pin, or a property is not a real number. -/
theorem c187_net_partial (T : DefTech) (isTA : Bool) (nets : List ONet) (ptype : String → Option EhPT) (n : EhNet)
    (ht : ∀ p ∈ n.props, ptype p.1 = some p.2.2) :
    ehReadNet ptype (ehNet (writeNet T isTA nets n.name) n) =
      if n.Readable then some (n.echoed (writeNet T isTA nets n.name)) else none := by
  split
  · next h => exact net_readable ptype _ n h (writeNet_nonempty T isTA nets n.name) ht
  · next h => exact net_unreadable ptype _ n h

/-- C187: the connections of a net are never changed: the same pins in the same order, for every net that can be read
back. -/
theorem c187_connections (T : DefTech) (isTA : Bool) (nets : List ONet) (ptype : String → Option EhPT) (n m : EhNet)
    (ht : ∀ p ∈ n.props, ptype p.1 = some p.2.2)
    (h : ehReadNet ptype (ehNet (writeNet T isTA nets n.name) n) = some m) :
    m.name = n.name ∧ m.conns = n.conns ∧ m.ndr = n.ndr ∧ m.routes = writeNet T isTA nets n.name := by
  classical
  rw [c187_net_partial T isTA nets ptype n ht] at h
  split at h
  · simp only [Option.some.injEq] at h
    subst h
    exact ⟨rfl, rfl, rfl, rfl⟩
  · cases h

/-- C187: the wires that the reference file gave to the net are never written, only those of the router. -/
theorem c187_old_wires (routes : List (List PathTok)) (n : EhNet) (ws : List (List PathTok)) :
    ehNet routes { n with routes := ws } = ehNet routes n := rfl

/-- C187 fails: the net option `XTALK` is lost without a word. -/
theorem c187_lost : ∃ n m : EhNet, ehReadNet (fun _ => none) (ehNet [] n) = some m ∧ n.xtalk = some 3 ∧ m.xtalk = none :=
  ⟨{ name := "n", xtalk := some 3 }, { name := "n" }, by decide +kernel, rfl, rfl⟩

/-- a net with two pins, a nondefault rule, two routes and a real property of eight digits -/
example : ehReadNet (fun s => if s = "p" then some .r else none)
    (ehNet [[.layer "M1", .point 0 0, .point 100 0], [.layer "M1", .point 0 0, .via "V12"]]
      { name := "n1", conns := [("u1", "A", false), ("PIN", "in", false)], ndr := some "wide",
        props := [("p", .num 12345678, .r)], weight := some 2, use := some "SIGNAL" })
    = some { name := "n1", conns := [("u1", "A", false), ("PIN", "in", false)], ndr := some "wide",
             props := [("p", .num 12345700, .r)], weight := some 2, use := some "SIGNAL",
             routes := [[.layer "M1", .point 0 0, .point 100 0], [.layer "M1", .point 0 0, .via "V12"]] } := by
  decide +kernel

/-- the grammar accepts a synthesized connection and a virtual pin when they are written as DEF says -/
example : (ehReadNet (fun _ => none) [.minus, .word "n", .lp, .word "u", .word "A", .plus, .kw .synthesized, .rp, .plus,
    .kw .vpin, .word "v", .lp, .num 0, .num 0, .rp, .lp, .num 9, .num 9, .rp, .semi]).isSome = true := by
  decide +kernel

end TR
