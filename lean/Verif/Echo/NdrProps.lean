import Verif.Echo.NdrSpec
import Verif.Echo.ViaProps

/-!
# C193: nondefault rules and regions; C194: fills and slots
-/

namespace TR

/-! ## Nondefault rules -/

/-- the options of a rule -/
def ndrOpts (n : EhNdr) : List (List EhTok) :=
  (if n.hard then [[.kw .hardspacing]] else []) ++ (n.layers.map ehNdrLayer
  ++ (n.vias.map (fun v => [.kw .via, .word v])
  ++ (n.viaRules.map (fun v => [.kw .viarule, .word v])
  ++ (n.minCuts.map (fun v => [.kw .mincuts, .word v.1, .num v.2])
  ++ n.props.map ehTyped))))

theorem ndr_text (n : EhNdr) : ehNdr n = [.minus, .word n.name] ++ ((ndrOpts n).flatMap (fun o => .plus :: o) ++ [.semi]) := by
  unfold ehNdr ndrOpts
  simp only [List.flatMap_append, flatMap_map', List.append_assoc]
  congr 2
  split <;> simp

theorem typed_plain (p : String × EhVal × EhPT) : ∀ t ∈ ehTyped p, EhPlainTok t := by
  intro t ht
  obtain ⟨n, v, k⟩ := p
  simp [ehTyped] at ht
  rcases ht with h | h | h | h
  · subst h; simp [EhPlainTok]
  · subst h; simp [EhPlainTok]
  · subst h; cases v <;> simp [EhVal.tok, EhPlainTok]
  · subst h; simp [EhPlainTok]

theorem ndr_plain (n : EhNdr) : ∀ o ∈ ndrOpts n, ∀ t ∈ o, EhPlainTok t := by
  intro o ho t ht
  unfold ndrOpts at ho
  simp only [List.mem_append] at ho
  rcases ho with ho | ho | ho | ho | ho | ho
  · split at ho
    · simp at ho; subst ho; simp at ht; subst ht; simp [EhPlainTok]
    · cases ho
  · obtain ⟨l, -, rfl⟩ := List.mem_map.1 ho
    obtain ⟨a, w, d, s, e⟩ := l
    cases d <;> cases s <;> cases e <;> simp [ehNdrLayer] at ht <;>
      (repeat' (rcases ht with h | ht)) <;> (try subst h) <;> (try subst ht) <;> simp [EhPlainTok]
  · obtain ⟨l, -, rfl⟩ := List.mem_map.1 ho
    simp at ht; rcases ht with h | h <;> subst h <;> simp [EhPlainTok]
  · obtain ⟨l, -, rfl⟩ := List.mem_map.1 ho
    simp at ht; rcases ht with h | h <;> subst h <;> simp [EhPlainTok]
  · obtain ⟨l, -, rfl⟩ := List.mem_map.1 ho
    simp at ht; rcases ht with h | h | h <;> subst h <;> simp [EhPlainTok]
  · obtain ⟨p, -, rfl⟩ := List.mem_map.1 ho
    exact typed_plain p t ht

/-- reading a list that is collected -/
theorem fold_collect {σ α : Type} (rd : σ → List EhTok → Option σ) (f : α → List EhTok) (set : List α → σ)
    (h : ∀ l v, rd (set l) (f v) = some (set (l ++ [v]))) (l : List α) (l0 : List α) :
    List.foldlM rd (set l0) (l.map f) = some (set (l0 ++ l)) := by
  induction l generalizing l0 with
  | nil => simp
  | cons v l ih =>
      rw [List.map_cons, List.foldlM_cons, h]
      show List.foldlM rd (set (l0 ++ [v])) (l.map f) = _
      rw [ih]; simp

theorem ndrLayer_read (pt : String → Option EhPT) (n : EhNdr) (l : EhNdrLayer) :
    ehNdrOpt pt n (ehNdrLayer l) = some { n with layers := n.layers ++ [l] } := by
  obtain ⟨a, w, d, s, e⟩ := l
  cases d <;> cases s <;> cases e <;> simp [ehNdrLayer, ehNdrOpt, ehNdrLayerIn]

theorem ndr_typed_bad (pt : String → Option EhPT) (n : EhNdr) (p : String × EhVal × EhPT) :
    ehNdrOpt pt n (ehTyped p) = none := by
  obtain ⟨a, v, k⟩ := p
  cases v <;> simp [ehTyped, ehNdrOpt, ehPairs, EhVal.tok]

theorem ndr_readable (pt : String → Option EhPT) (n : EhNdr) :
    ehReadNdr pt (ehNdr n) = if n.props = [] then some n else none := by
  unfold ehReadNdr
  rw [ndr_text, ehSplit_stmt _ _ (by simp [EhPlainTok]) (ndr_plain n)]
  dsimp only [Option.bind_some]
  split
  · rename_i hp
    obtain ⟨name, hard, layers, vias, rules, cuts, props⟩ := n
    dsimp only at hp
    subst hp
    unfold ndrOpts
    dsimp only
    rw [foldlM_append']
    have h0 : List.foldlM (ehNdrOpt pt) { name := name } (if hard = true then [[EhTok.kw .hardspacing]] else []) =
        some { name := name, hard := hard } := by cases hard <;> rfl
    rw [h0, Option.bind_some, foldlM_append',
      fold_collect (ehNdrOpt pt) ehNdrLayer (fun l => { name := name, hard := hard, layers := l })
        (fun l v => ndrLayer_read pt _ v) layers [], Option.bind_some, foldlM_append',
      fold_collect (ehNdrOpt pt) (fun v => [.kw .via, .word v])
        (fun l => { name := name, hard := hard, layers := [] ++ layers, vias := l }) (fun l v => rfl) vias [],
      Option.bind_some, foldlM_append',
      fold_collect (ehNdrOpt pt) (fun v => [.kw .viarule, .word v])
        (fun l => { name := name, hard := hard, layers := [] ++ layers, vias := [] ++ vias, viaRules := l })
        (fun l v => rfl) rules [],
      Option.bind_some, foldlM_append',
      fold_collect (ehNdrOpt pt) (fun v : String × Int => [.kw .mincuts, .word v.1, .num v.2])
        (fun l => { name := name, hard := hard, layers := [] ++ layers, vias := [] ++ vias, viaRules := [] ++ rules, minCuts := l })
        (fun l v => rfl) cuts []]
    simp
  · rename_i hp
    cases hq : n.props with
    | nil => exact absurd hq hp
    | cons p ps =>
        refine foldlM_bad _ _ _ (ehTyped p) ?_ (fun t => ndr_typed_bad pt t p)
        unfold ndrOpts
        rw [hq]
        simp

/-- a nondefault rule of the reference file is said just as it was exactly if it has no property; with one it cannot be read -/
theorem c193_ndr_partial (pt : String → Option EhPT) (n : EhNdr) :
    ehReadNdr pt (ehNdr n) = if n.props = [] then some n else none := ndr_readable pt n

/-! ## Regions -/

/-- the options of a region -/
def regOpts (r : EhReg) : List (List EhTok) :=
  r.type.toList.map (fun t => [.kw .type, .kw t.kw]) ++ r.props.map ehTyped

theorem twos_read (bs : List (Int × Int × Int × Int)) : ehTwos (bs.flatMap ehTwo) = some bs := by
  induction bs with
  | nil => rfl
  | cons b bs ih =>
      obtain ⟨x, y, z, w⟩ := b
      simp [ehTwo, ehPt, ehTwos, ih]

theorem reg_split (r : EhReg) :
    ehSplit (ehReg r) = some (.minus :: .word r.name :: r.boxes.flatMap ehTwo, regOpts r) := by
  have : ehReg r = (.minus :: .word r.name :: r.boxes.flatMap ehTwo) ++
      ((regOpts r).flatMap (fun o => .plus :: o) ++ [.semi]) := by
    unfold ehReg regOpts
    simp only [List.flatMap_append, flatMap_map', List.append_assoc, List.cons_append, List.nil_append]
  rw [this]
  refine ehSplit_stmt _ _ ?_ ?_
  · intro t ht
    simp only [List.mem_cons] at ht
    rcases ht with h | h | h
    · subst h; simp [EhPlainTok]
    · subst h; simp [EhPlainTok]
    · obtain ⟨b, -, hb⟩ := List.mem_flatMap.1 h
      simp [ehTwo, ehPt] at hb
      rcases hb with h | h | h | h | h | h | h | h <;> subst h <;> simp [EhPlainTok]
  · intro o ho t ht
    unfold regOpts at ho
    rcases List.mem_append.1 ho with ho | ho
    · obtain ⟨k, -, rfl⟩ := List.mem_map.1 ho
      simp at ht; rcases ht with h | h <;> subst h <;> simp [EhPlainTok]
    · obtain ⟨p, -, rfl⟩ := List.mem_map.1 ho
      exact typed_plain p t ht

/-- a region of the reference file is said just as it was exactly if it has no property; with one it cannot be read -/
theorem c193_region_partial (pt : String → Option EhPT) (r : EhReg) (hb : r.boxes ≠ []) :
    ehReadReg pt (ehReg r) = if r.props = [] then some r else none := by
  unfold ehReadReg
  rw [reg_split]
  dsimp only [Option.bind_some]
  rw [twos_read]
  simp only [Option.bind_some, if_neg hb]
  split
  · rename_i hp
    obtain ⟨name, boxes, type, props⟩ := r
    dsimp only at hp
    subst hp
    rcases type with _ | _ | _ <;> simp [regOpts, EhRegType.kw, ehRegOpt]
  · rename_i hp
    cases hq : r.props with
    | nil => exact absurd hq hp
    | cons p ps =>
        refine foldlM_bad _ _ _ (ehTyped p) ?_ (fun t => ?_)
        · unfold regOpts; rw [hq]; simp
        · obtain ⟨a, v, k⟩ := p
          cases v <;> simp [ehTyped, ehRegOpt, ehPairs, EhVal.tok]

/-- different rules without properties have different texts -/
theorem c193_inj (a b : EhNdr) (pa : a.props = []) (pb : b.props = []) (h : ehNdr a = ehNdr b) : a = b := by
  have h1 := ndr_readable (fun _ => none) a
  have h2 := ndr_readable (fun _ => none) b
  rw [h, h2, if_pos pa, if_pos pb] at h1
  exact (Option.some.inj h1).symm

/-- a rule with two layers, a via rule and a number of cuts -/
def exEhNdr : EhNdr :=
  { name := "wide", hard := true, layers := [⟨"M1", 40, none, some 60, none⟩, ⟨"M2", 50, some 70, none, some 5⟩],
    vias := ["v1"], viaRules := ["r1", "r2"], minCuts := [("V1", 2)] }

example : ehReadNdr (fun _ => none) (ehNdr exEhNdr) = some exEhNdr ∧
    (∀ k, ehReadNdr (fun _ => some k) (ehNdr { exEhNdr with props := [("p", .num 3, k)] }) = none) ∧
    ehReadNdr (fun _ => some .r) [.minus, .word "n", .plus, .kw .property, .word "p", .num 3, .semi]
      = some { name := "n", props := [("p", .num 3, .r)] } := by
  refine ⟨by decide +kernel, fun k => ?_, by decide +kernel⟩
  rw [ndr_readable]; rfl

example : ehReadReg (fun _ => none) (ehReg { name := "g", boxes := [(0, 0, 5, 5), (5, 0, 9, 9)], type := some .guide }) =
    some { name := "g", boxes := [(0, 0, 5, 5), (5, 0, 9, 9)], type := some .guide } := by decide +kernel

/-! ## Fills and slots -/

theorem fillShapes_bad (f : EhFill) (b : EhFill) (h : b.boxes ≠ [] ∨ b.polys ≠ []) :
    ehFillShapes f none (ehBare b ++ [.semi]) = none := by
  unfold ehBare
  cases hb : b.boxes with
  | cons r rs => simp [ehFillShapes]
  | nil =>
      cases hp : b.polys with
      | nil => simp [hb, hp] at h
      | cons p ps =>
          cases p with
          | cons q p => simp [ehFillShapes, ehFillClose]
          | nil =>
              cases ps <;> simp [ehFillShapes, ehFillClose]

theorem bare_noplus (b : EhFill) (h : b.boxes ≠ [] ∨ b.polys ≠ []) : NoPlus (ehBare b ++ [.semi]) := by
  intro r
  unfold ehBare
  cases hb : b.boxes with
  | cons r rs => simp
  | nil =>
      cases hp : b.polys with
      | nil => simp [hb, hp] at h
      | cons p ps => simp

theorem fillIn_shapes (f : EhFill) (ts : List EhTok) (h : NoPlus ts) : ehFillIn f ts = ehFillShapes f none ts := by
  rw [ehFillIn.eq_def]
  split <;> first | rfl | exact absurd rfl (h _)

/-- no fill of the reference file on a layer can be read in the written file -/
theorem c194_fill_partial (f : EhFill) (h : f.boxes ≠ [] ∨ f.polys ≠ []) : ehReadFill (ehFill f) = none := by
  unfold ehFill
  simp only [List.append_assoc, List.cons_append, List.nil_append, ehReadFill]
  by_cases hm : f.mask = 0 <;> cases ho : f.opc <;> simp [hm, ehFillIn] <;>
    rw [fillIn_shapes _ _ (bare_noplus f h), fillShapes_bad _ f h]

/-- no slot of the reference file can be read in the written file -/
theorem c194_slot (f : EhFill) (h : f.boxes ≠ [] ∨ f.polys ≠ []) : ehReadSlot (ehSlot f) = none := by
  unfold ehSlot
  simp only [List.append_assoc, List.cons_append, List.nil_append, ehReadSlot]
  exact fillShapes_bad _ f h

/-- no fill of vias of the reference file can be read in the written file -/
theorem c194_via (f : EhFillVia) (h : f.pts ≠ []) : ehReadFillVia (ehFillVia f) = none := by
  obtain ⟨name, mask, opc, pts⟩ := f
  cases pts with
  | nil => exact absurd rfl h
  | cons p ps => cases mask <;> cases opc <;> simp [ehFillVia, ehReadFillVia, ehFillViaIn]

/-- the grammar accepts these statements when they are written with parentheses -/
example : ehReadFill [.minus, .kw .layer, .word "M1", .plus, .kw .opc, .kw .rect, .lp, .num 0, .num 0, .rp, .lp, .num 4, .num 5, .rp,
      .kw .polygon, .lp, .num 0, .num 0, .rp, .lp, .num 4, .num 0, .rp, .lp, .num 4, .num 5, .rp, .semi]
    = some { layer := "M1", opc := true, boxes := [(0, 0, 4, 5)], polys := [[(0, 0), (4, 0), (4, 5)]] } ∧
  ehReadSlot [.minus, .kw .layer, .word "M1", .kw .rect, .lp, .num 0, .num 0, .rp, .lp, .num 4, .num 5, .rp, .semi]
    = some { layer := "M1", boxes := [(0, 0, 4, 5)] } ∧
  ehReadFillVia [.minus, .kw .via, .word "v", .plus, .kw .mask, .digits [1, 0, 2], .lp, .num 0, .num 0, .rp, .semi]
    = some { name := "v", mask := some [1, 0, 2], pts := [(0, 0)] } := by
  decide +kernel

example : ehReadFill (ehFill { layer := "M1", boxes := [(0, 0, 4, 5)] }) = none := c194_fill_partial _ (by simp)

end TR
