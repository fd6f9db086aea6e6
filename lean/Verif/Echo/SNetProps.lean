import Verif.Echo.SNetSpec
import Verif.Echo.NetProps

/-!
# C188: special nets are written back as they were read
-/

namespace TR

/-- an element that the writer has a case for -/
def EhSp.kept : EhSp → Bool
  | .rect _ _ _ _ => false
  | .virt _ _ => false
  | _ => true

/-- special nets that are written in the syntax of DEF: no connection is synthesized, there is no polygon and no
rectangle, and the voltage is below 1000 V (in millivolts) -/
def EhSNet.Readable (n : EhSNet) : Prop :=
  (∀ c ∈ n.conns, c.2.2 = false) ∧ n.polys = [] ∧ n.rects = [] ∧ ∀ v ∈ n.voltage, v.natAbs < 1000000

/-- a property value with six digits -/
def ehSixVal : EhVal → EhVal
  | .num v => .num (ehG v)
  | .str s => .str s

/-- the special net that is described by what is written: the rectangles and virtual points inside the wires, the vias
and `STYLE` are gone, spacings, the frequency and numeric properties have six digits, and a range of one width is gone -/
def EhSNet.echoed (n : EhSNet) : EhSNet :=
  { n with
    wires := n.wires.map fun w => (w.1, w.2.filter EhSp.kept)
    vias := []
    props := n.props.map fun p => (p.1, ehSixVal p.2.1, p.2.2)
    spacings := n.spacings.map fun s =>
      (s.1, ehG s.2.1, (s.2.2.filter fun r => r.1 ≠ r.2).map fun r => (ehG r.1, ehG r.2))
    frequency := n.frequency.map ehG
    style := none }

/-- what the library gives: wires with paths, properties with the type of their definition -/
def EhSNet.Ok (ptype : String → Option EhPT) (n : EhSNet) : Prop :=
  (∀ w ∈ n.wires, ehSpOk .layer w.2) ∧ ∀ p ∈ n.props, ptype p.1 = some p.2.2

theorem ori_read (o : Int) (h : 0 ≤ o ∧ o < 8) : ∃ d, ehOri o = .ori d ∧ ehReadOri (.ori d) = some o := by
  have h1 := ehReadOri_ori o
  rw [if_pos h] at h1
  cases ho : ehOri o with
  | ori d => exact ⟨d, rfl, by rw [← ho]; exact h1⟩
  | _ => rw [ho] at h1; simp [ehReadOri] at h1

theorem spIn_stop (k : Nat) (ts : List EhTok) (h : EhOptsBegin ts) : ehSpIn (.items k) ts = some ([], ts) := by
  cases ts with
  | nil => rfl
  | cons t r => rcases h t (by simp) with h | h <;> subst h <;> rfl

/-- the words of a path are read as its elements, without those that are not written -/
theorem spIn_elems (es : List EhSp) (rest : List EhTok) (hb : EhOptsBegin rest) :
    (∀ k k', k ≤ k' → k' ≤ 2 → ehSpOk (.items k) es →
      ehSpIn (.items k') (ehElems false es ++ rest) = some (es.filter EhSp.kept, rest))
    ∧ (ehSpOk .opts es → ehSpIn .opts (ehElems false es ++ rest) = some (es.filter EhSp.kept, rest))
    ∧ (ehSpOk .width es → ehSpIn .width (ehElems false es ++ rest) = some (es.filter EhSp.kept, rest))
    ∧ (ehSpOk .layer es → ehSpIn .layer (ehElems true es ++ rest) = some (es.filter EhSp.kept, rest)) := by
  induction es with
  | nil =>
      refine ⟨fun k k' _ _ _ => by simpa [ehElems] using spIn_stop k' rest hb, ?_, ?_, ?_⟩ <;> intro h <;> exact h.elim
  | cons e es ih =>
      obtain ⟨i1, i2, i3, i4⟩ := ih
      refine ⟨?_, ?_, ?_, ?_⟩
      · intro k k' hk hk' hok
        cases e with
        | layer s => simp [ehElems, ehSpIn, EhSp.kept, List.filter_cons, i3 hok]
        | width w => exact hok.elim
        | shape s => exact hok.elim
        | style s => exact hok.elim
        | point x y => simp [ehElems, ehSpIn, EhSp.kept, List.filter_cons, i1 0 0 (by omega) (by omega) hok]
        | flush x y z => simp [ehElems, ehSpIn, EhSp.kept, List.filter_cons, i1 0 0 (by omega) (by omega) hok]
        | via s => simp [ehElems, ehSpIn, EhSp.kept, List.filter_cons, i1 2 2 (by omega) (by omega) hok]
        | rot o =>
            obtain ⟨h1, h2, h3⟩ := hok
            obtain ⟨d, hd, hr⟩ := ori_read o h2
            have : k' = 2 := by omega
            subst this
            simp [ehElems, hd, ehSpIn, EhSp.kept, List.filter_cons, hr, i1 1 1 (by omega) (by omega) h3]
        | data a b c d =>
            obtain ⟨h1, h3⟩ := hok
            have : 1 ≤ k' := by omega
            simp [ehElems, ehSpIn, EhSp.kept, List.filter_cons, this, i1 0 0 (by omega) (by omega) h3]
        | rect a b c d => simpa [ehElems, EhSp.kept, List.filter_cons] using i1 0 k' (by omega) hk' hok
        | virt a b => simpa [ehElems, EhSp.kept, List.filter_cons] using i1 0 k' (by omega) hk' hok
      · intro hok
        cases e with
        | shape s => simp [ehElems, ehSpIn, EhSp.kept, List.filter_cons, i2 hok]
        | style s => simp [ehElems, ehSpIn, EhSp.kept, List.filter_cons, i2 hok]
        | point x y => simp [ehElems, ehSpIn, EhSp.kept, List.filter_cons, i1 0 0 (by omega) (by omega) hok]
        | flush x y z => simp [ehElems, ehSpIn, EhSp.kept, List.filter_cons, i1 0 0 (by omega) (by omega) hok]
        | _ => exact hok.elim
      · intro hok
        cases e with
        | width w => simp [ehElems, ehSpIn, EhSp.kept, List.filter_cons, i2 hok]
        | _ => exact hok.elim
      · intro hok
        cases e with
        | layer s => simp [ehElems, ehSpIn, EhSp.kept, List.filter_cons, i3 hok]
        | _ => exact hok.elim

/-- the options of a special net that are no wires, in the order in which they are written -/
def ehSNetTail (n : EhSNet) : List (List EhTok) :=
  n.polys.map (fun p => [.kw .polygon, .word p.1] ++ p.2.flatMap (fun q => [.num q.1, .num q.2]))
  ++ n.rects.map (fun r => [.kw .rect, .word r.1, .num r.2.1, .num r.2.2.1, .num r.2.2.2.1, .num r.2.2.2.2])
  ++ n.props.map (fun p => [.kw .property, .word p.1, ehSVal p.2.1])
  ++ n.spacings.map ehSpacing
  ++ (if n.fixedbump then [[.kw .fixedbump]] else [])
  ++ n.frequency.toList.map (fun f => [.kw .frequency, .num (ehG f)])
  ++ n.voltage.toList.map (fun v => [.kw .voltage, ehVolt v])
  ++ n.weight.toList.map (fun w => [.kw .weight, .num w])
  ++ n.source.toList.map (fun s => [.kw .source, .word s])
  ++ n.pattern.toList.map (fun s => [.kw .pattern, .word s])
  ++ n.original.toList.map (fun s => [.kw .original, .word s])
  ++ n.use.toList.map (fun s => [.kw .use, .word s])

theorem ehSNet_eq (n : EhSNet) :
    ehSNet n = .minus :: .word n.name :: (ehConns n.conns ++
      (n.wires.flatMap (fun w => w.1.text ++ ehElems true w.2) ++
        ((ehSNetTail n).flatMap (fun o => .plus :: o) ++ [.semi]))) := by
  unfold ehSNet ehSNetTail
  simp only [List.flatMap_append, flatMap_map', List.append_assoc, List.cons_append, List.nil_append]
  congr 3
  congr 1
  congr 1
  congr 1
  congr 1
  congr 1
  congr 1
  · cases n.fixedbump <;> rfl
  congr 1
  · cases n.frequency <;> rfl
  congr 1
  · cases n.voltage <;> rfl
  congr 1
  · cases n.weight <;> rfl
  congr 1
  · cases n.source <;> rfl
  congr 1
  · cases n.pattern <;> rfl
  congr 1
  · cases n.original <;> rfl
  congr 1
  cases n.use <;> rfl

/-- an option that is no wire -/
def EhOther (o : List EhTok) : Prop :=
  (∀ t ∈ o, ehPlainB t = true) ∧ ∃ k r, o = .kw k :: r ∧ k ≠ .routed ∧ k ≠ .fixed ∧ k ≠ .cover ∧ k ≠ .shield

theorem wireHead_other (o r : List EhTok) (h : EhOther o) : ehWireHead (o ++ r) = none := by
  obtain ⟨_, k, q, rfl, h1, h2, h3, h4⟩ := h
  cases k <;> first | exact absurd rfl h1 | exact absurd rfl h2 | exact absurd rfl h3 | exact absurd rfl h4 | rfl

theorem takeWhile_opt (o ts : List EhTok) (ho : ∀ t ∈ o, ehPlainB t = true) (hb : EhOptsBegin ts) :
    (o ++ ts).takeWhile ehPlainB = o ∧ (o ++ ts).dropWhile ehPlainB = ts := by
  induction o with
  | nil =>
      cases ts with
      | nil => exact ⟨rfl, rfl⟩
      | cons t r => rcases hb t (by simp) with h | h <;> subst h <;> exact ⟨rfl, rfl⟩
  | cons t o ih =>
      obtain ⟨h1, h2⟩ := ih (fun x hx => ho x (by simp [hx]))
      have ht := ho t (by simp)
      constructor
      · rw [List.cons_append, List.takeWhile_cons, if_pos ht, h1]
      · rw [List.cons_append, List.dropWhile_cons, if_pos ht, h2]

theorem read_others (ptype : String → Option EhPT) (os : List (List EhTok)) (ho : ∀ o ∈ os, EhOther o) (f : Nat)
    (hf : os.length ≤ f) (n : EhSNet) :
    ehSNetOpts ptype f n (os.flatMap (fun o => .plus :: o) ++ [.semi]) = os.foldlM (ehSNetOpt ptype) n := by
  induction os generalizing f n with
  | nil => cases f <;> simp [ehSNetOpts]
  | cons o os ih =>
      obtain ⟨f, rfl⟩ : ∃ g, f = g + 1 := ⟨f - 1, by simp at hf; omega⟩
      have hoo := ho o (by simp)
      obtain ⟨h1, h2⟩ := takeWhile_opt o _ hoo.1 (opts_begin os)
      rw [List.flatMap_cons, List.cons_append, List.cons_append, List.append_assoc, ehSNetOpts,
        wireHead_other _ _ hoo]
      dsimp only
      rw [h1, h2, List.foldlM_cons]
      cases ehSNetOpt ptype n o with
      | none => rfl
      | some m => exact ih (fun x hx => ho x (by simp [hx])) f (by simp at hf; omega) m

theorem wire_begin (ws : List (EhWk × List EhSp)) (ts : List EhTok) (hb : EhOptsBegin ts) :
    EhOptsBegin (ws.flatMap (fun w => w.1.text ++ ehElems true w.2) ++ ts) := by
  cases ws with
  | nil => exact hb
  | cons w ws =>
      obtain ⟨k, es⟩ := w
      cases k <;> (intro t ht; left; simp [EhWk.text] at ht; exact ht.symm)

theorem read_wires (ptype : String → Option EhPT) (ws : List (EhWk × List EhSp)) (hw : ∀ w ∈ ws, ehSpOk .layer w.2)
    (ts : List EhTok) (hb : EhOptsBegin ts) (f : Nat) (n : EhSNet) :
    ehSNetOpts ptype (ws.length + f) n (ws.flatMap (fun w => w.1.text ++ ehElems true w.2) ++ ts)
      = ehSNetOpts ptype f { n with wires := n.wires ++ ws.map fun w => (w.1, w.2.filter EhSp.kept) } ts := by
  induction ws generalizing n with
  | nil => simp
  | cons w ws ih =>
      obtain ⟨k, es⟩ := w
      have hok : ehSpOk .layer es := hw (k, es) (by simp)
      have hr := (spIn_elems es _ (wire_begin ws ts hb)).2.2.2 hok
      have ih := fun n => ih (fun w h => hw w (by simp [h])) n
      cases es with
      | nil => exact hok.elim
      | cons e es =>
          cases e with
          | layer l =>
              have hl : (ws.length + 1 + f) = (ws.length + f) + 1 := by omega
              have he : ∀ q, ehElems true (.layer l :: es) ++ q = .word l :: (ehElems false es ++ q) := by
                intro q; simp [ehElems]
              rw [he] at hr
              rw [List.length_cons, hl, List.flatMap_cons, List.append_assoc, List.append_assoc, he]
              generalize hT : ws.flatMap (fun w => w.1.text ++ ehElems true w.2) ++ ts = T at hr ih
              cases k <;>
                simp only [EhWk.text, List.cons_append, List.nil_append, ehSNetOpts, ehWireHead, hr, Option.bind_some, ih,
                  List.map_cons, List.append_assoc]
          | _ => exact hok.elim

theorem tail_other (n : EhSNet) : ∀ o ∈ ehSNetTail n, EhOther o := by
  intro o ho
  unfold ehSNetTail at ho
  simp only [List.mem_append] at ho
  have hpl : ∀ (s : List EhTok), (∀ t ∈ s, ehPlainB t = true) → ∀ t ∈ s, ehPlainB t = true := fun _ h => h
  rcases ho with (((((((((((h | h) | h) | h) | h) | h) | h) | h) | h) | h) | h) | h)
  · obtain ⟨b, _, rfl⟩ := List.mem_map.1 h
    refine ⟨?_, .polygon, _, rfl, by decide, by decide, by decide, by decide⟩
    intro t ht
    simp only [List.cons_append, List.nil_append, List.mem_cons, List.mem_flatMap, List.not_mem_nil, or_false] at ht
    rcases ht with h | h | ⟨q, _, h | h⟩ <;> subst h <;> rfl
  · obtain ⟨b, _, rfl⟩ := List.mem_map.1 h
    exact ⟨by simp [ehPlainB], .rect, _, rfl, by decide, by decide, by decide, by decide⟩
  · obtain ⟨⟨p, v, t⟩, _, rfl⟩ := List.mem_map.1 h
    refine ⟨?_, .property, _, rfl, by decide, by decide, by decide, by decide⟩
    cases v <;> simp [ehPlainB, ehSVal]
  · obtain ⟨⟨l, d, r⟩, _, rfl⟩ := List.mem_map.1 h
    refine ⟨?_, .spacing, _, rfl, by decide, by decide, by decide, by decide⟩
    rcases r with _ | ⟨a, b⟩
    · simp [ehPlainB, ehSpacing]
    · by_cases hab : a = b <;> simp [ehPlainB, ehSpacing, hab]
  · split at h
    · rw [List.mem_singleton] at h; subst h
      exact ⟨by simp [ehPlainB], .fixedbump, _, rfl, by decide, by decide, by decide, by decide⟩
    · cases h
  · obtain ⟨b, _, rfl⟩ := List.mem_map.1 h
    exact ⟨by simp [ehPlainB], .frequency, _, rfl, by decide, by decide, by decide, by decide⟩
  · obtain ⟨b, _, rfl⟩ := List.mem_map.1 h
    refine ⟨?_, .voltage, _, rfl, by decide, by decide, by decide, by decide⟩
    unfold ehVolt; split <;> simp [ehPlainB]
  · obtain ⟨b, _, rfl⟩ := List.mem_map.1 h
    exact ⟨by simp [ehPlainB], .weight, _, rfl, by decide, by decide, by decide, by decide⟩
  · obtain ⟨b, _, rfl⟩ := List.mem_map.1 h
    exact ⟨by simp [ehPlainB], .source, _, rfl, by decide, by decide, by decide, by decide⟩
  · obtain ⟨b, _, rfl⟩ := List.mem_map.1 h
    exact ⟨by simp [ehPlainB], .pattern, _, rfl, by decide, by decide, by decide, by decide⟩
  · obtain ⟨b, _, rfl⟩ := List.mem_map.1 h
    exact ⟨by simp [ehPlainB], .original, _, rfl, by decide, by decide, by decide, by decide⟩
  · obtain ⟨b, _, rfl⟩ := List.mem_map.1 h
    exact ⟨by simp [ehPlainB], .use, _, rfl, by decide, by decide, by decide, by decide⟩

theorem length_wires (ws : List (EhWk × List EhSp)) :
    ws.length ≤ (ws.flatMap (fun w => w.1.text ++ ehElems true w.2)).length := by
  induction ws with
  | nil => simp
  | cons w ws ih =>
      obtain ⟨k, es⟩ := w
      have hk : 1 ≤ k.text.length := by cases k <;> simp [EhWk.text]
      simp only [List.flatMap_cons, List.length_append, List.length_cons]
      omega

theorem length_opts (os : List (List EhTok)) : os.length ≤ (os.flatMap (fun o => EhTok.plus :: o)).length := by
  induction os with
  | nil => simp
  | cons o os ih => simp only [List.flatMap_cons, List.length_append, List.length_cons]; omega

theorem ehReadSNet_eq (ptype : String → Option EhPT) (n : EhSNet) (hw : ∀ w ∈ n.wires, ehSpOk .layer w.2)
    (hc : ∀ c ∈ n.conns, c.2.2 = false) :
    ehReadSNet ptype (ehSNet n) = (ehSNetTail n).foldlM (ehSNetOpt ptype)
      { name := n.name, conns := n.conns, wires := n.wires.map fun w => (w.1, w.2.filter EhSp.kept) } := by
  rw [ehSNet_eq, ehReadSNet, ehConnsIn_conns _ hc _ (wire_begin _ _ (opts_begin _))]
  have h1 := length_wires n.wires
  have h2 := length_opts (ehSNetTail n)
  generalize hL : (ehConns n.conns ++ (n.wires.flatMap (fun (w : EhWk × List EhSp) => w.1.text ++ ehElems true w.2) ++
      ((ehSNetTail n).flatMap (fun o => EhTok.plus :: o) ++ [EhTok.semi]))).length = L
  have hLe : n.wires.length + (ehSNetTail n).length ≤ L := by
    rw [← hL]; simp only [List.length_append]; omega
  obtain ⟨f, rfl⟩ : ∃ f, L = n.wires.length + f := ⟨L - n.wires.length, by omega⟩
  dsimp only
  rw [read_wires ptype n.wires hw _ (opts_begin _) f, read_others ptype _ (tail_other n) f (by omega)]
  simp

theorem fold_sprops (ptype : String → Option EhPT) (ps : List (String × EhVal × EhPT)) (n : EhSNet)
    (ht : ∀ p ∈ ps, ptype p.1 = some p.2.2) :
    List.foldlM (ehSNetOpt ptype) n (ps.map fun p => [.kw .property, .word p.1, ehSVal p.2.1])
      = some { n with props := n.props ++ ps.map fun p => (p.1, ehSixVal p.2.1, p.2.2) } := by
  induction ps generalizing n with
  | nil => simp
  | cons p ps ih =>
      obtain ⟨m, v, k⟩ := p
      have hp : ptype m = some k := ht (m, v, k) (by simp)
      have h1 : ehSNetOpt ptype n [.kw .property, .word m, ehSVal v]
          = some { n with props := n.props ++ [(m, ehSixVal v, k)] } := by
        cases v <;> simp [ehSNetOpt, ehPairs, ehSVal, ehSixVal, hp]
      simp only [List.map_cons, List.foldlM_cons, h1, Option.bind_eq_bind, Option.bind_some]
      rw [ih _ (fun p h => ht p (by simp [h]))]
      simp

theorem fold_spacings (ptype : String → Option EhPT) (ss : List (String × Int × Option (Int × Int))) (n : EhSNet) :
    List.foldlM (ehSNetOpt ptype) n (ss.map ehSpacing)
      = some { n with spacings := n.spacings ++ ss.map fun s =>
          (s.1, ehG s.2.1, (s.2.2.filter fun r => r.1 ≠ r.2).map fun r => (ehG r.1, ehG r.2)) } := by
  induction ss generalizing n with
  | nil => simp
  | cons s ss ih =>
      have h1 : ehSNetOpt ptype n (ehSpacing s) = some { n with spacings := n.spacings ++
          [(s.1, ehG s.2.1, (s.2.2.filter fun r => r.1 ≠ r.2).map fun r => (ehG r.1, ehG r.2))] } := by
        obtain ⟨l, d, r⟩ := s
        rcases r with _ | ⟨a, b⟩
        · rfl
        · by_cases hab : a = b
          · simp [ehSpacing, ehSNetOpt, hab, Option.filter]
          · simp [ehSpacing, ehSNetOpt, hab, Option.filter]
      simp only [List.map_cons, List.foldlM_cons, h1, Option.bind_eq_bind, Option.bind_some]
      rw [ih]
      simp

theorem fold_map {σ α : Type} (rd : σ → List EhTok → Option σ) (o : Option α) (g : α → α) (f : α → List EhTok)
    (set : Option α → σ) (h : ∀ v ∈ o, rd (set none) (f v) = some (set (some (g v)))) :
    List.foldlM rd (set none) (o.toList.map f) = some (set (o.map g)) := by
  cases o with
  | none => rfl
  | some v => simp [h v rfl]

theorem fold_one' {σ α : Type} (rd : σ → List EhTok → Option σ) (o : Option α) (f : α → List EhTok)
    (set : Option α → σ) (h : ∀ v ∈ o, rd (set none) (f v) = some (set (some v))) :
    List.foldlM rd (set none) (o.toList.map f) = some (set o) := by
  cases o with
  | none => rfl
  | some v => simp [h v rfl]

theorem snet_readable (ptype : String → Option EhPT) (n : EhSNet) (hok : n.Ok ptype) (hn : n.Readable) :
    ehReadSNet ptype (ehSNet n) = some n.echoed := by
  obtain ⟨hc, hpo, hre, hv⟩ := hn
  rw [ehReadSNet_eq _ _ hok.1 hc]
  have hps := hok.2
  obtain ⟨name, conns, wires, polys, rects, vias, props, spacings, fixedbump, frequency, voltage, weight, source,
    pattern, original, use, style⟩ := n
  simp only at hpo hre hv hps
  subst hpo hre
  unfold ehSNetTail EhSNet.echoed
  dsimp only
  simp only [foldlM_append', List.map_nil, List.foldlM_nil, pure, Option.bind_some]
  rw [fold_sprops _ _ _ hps, Option.bind_some, fold_spacings, Option.bind_some]
  simp only [List.nil_append]
  generalize (props.map fun p => (p.1, ehSixVal p.2.1, p.2.2)) = ps
  generalize (spacings.map fun s =>
    (s.1, ehG s.2.1, (s.2.2.filter fun r => r.1 ≠ r.2).map fun r => (ehG r.1, ehG r.2))) = ss
  generalize (wires.map fun w => (w.1, w.2.filter EhSp.kept)) = ws
  have e3 : ∀ (s : Bool → EhSNet) (h : ehSNetOpt ptype (s false) [.kw .fixedbump] = some (s true)),
      List.foldlM (ehSNetOpt ptype) (s false) (if fixedbump then [[.kw .fixedbump]] else []) = some (s fixedbump) := by
    intro s h; cases fixedbump <;> simp [h]
  rw [e3 (fun o =>
      { name := name, conns := conns, wires := ws, props := ps, spacings := ss, fixedbump := o }) rfl,
    Option.bind_some]
  rw [fold_map (ehSNetOpt ptype) frequency ehG _ (fun o =>
      { name := name, conns := conns, wires := ws, props := ps, spacings := ss, fixedbump := fixedbump,
        frequency := o }) (fun v _ => rfl), Option.bind_some]
  rw [fold_one' (ehSNetOpt ptype) voltage _ (fun o =>
      { name := name, conns := conns, wires := ws, props := ps, spacings := ss, fixedbump := fixedbump,
        frequency := frequency.map ehG, voltage := o })
      (fun v h => by have := hv v h; simp [ehVolt, this, ehSNetOpt]), Option.bind_some]
  rw [fold_one (ehSNetOpt ptype) weight _ (fun o =>
      { name := name, conns := conns, wires := ws, props := ps, spacings := ss, fixedbump := fixedbump,
        frequency := frequency.map ehG, voltage := voltage, weight := o }) (fun v => rfl), Option.bind_some]
  rw [fold_one (ehSNetOpt ptype) source _ (fun o =>
      { name := name, conns := conns, wires := ws, props := ps, spacings := ss, fixedbump := fixedbump,
        frequency := frequency.map ehG, voltage := voltage, weight := weight, source := o }) (fun v => rfl),
    Option.bind_some]
  rw [fold_one (ehSNetOpt ptype) pattern _ (fun o =>
      { name := name, conns := conns, wires := ws, props := ps, spacings := ss, fixedbump := fixedbump,
        frequency := frequency.map ehG, voltage := voltage, weight := weight, source := source, pattern := o })
      (fun v => rfl), Option.bind_some]
  rw [fold_one (ehSNetOpt ptype) original _ (fun o =>
      { name := name, conns := conns, wires := ws, props := ps, spacings := ss, fixedbump := fixedbump,
        frequency := frequency.map ehG, voltage := voltage, weight := weight, source := source, pattern := pattern,
        original := o }) (fun v => rfl), Option.bind_some]
  rw [fold_one (ehSNetOpt ptype) use _ (fun o =>
      { name := name, conns := conns, wires := ws, props := ps, spacings := ss, fixedbump := fixedbump,
        frequency := frequency.map ehG, voltage := voltage, weight := weight, source := source, pattern := pattern,
        original := original, use := o }) (fun v => rfl)]

theorem snet_unreadable (ptype : String → Option EhPT) (n : EhSNet) (hok : n.Ok ptype) (hn : ¬ n.Readable)
    (hpoly : ∀ p ∈ n.polys, p.2 ≠ []) : ehReadSNet ptype (ehSNet n) = none := by
  by_cases hc : ∀ c ∈ n.conns, c.2.2 = false
  · rw [ehReadSNet_eq _ _ hok.1 hc]
    have key : ∃ o ∈ ehSNetTail n, ∀ t, ehSNetOpt ptype t o = none := by
      apply Classical.byContradiction
      intro hno
      have hb : ∀ o ∈ ehSNetTail n, ¬ ∀ t, ehSNetOpt ptype t o = none := fun o ho h => hno ⟨o, ho, h⟩
      refine hn ⟨hc, ?_, ?_, ?_⟩
      · cases hv : n.polys with
        | nil => rfl
        | cons v vs =>
            have hne := hpoly v (by rw [hv]; simp)
            obtain ⟨l, ps⟩ := v
            cases ps with
            | nil => exact absurd rfl hne
            | cons p ps =>
                refine (hb ([.kw .polygon, .word l] ++ (p :: ps).flatMap (fun q => [.num q.1, .num q.2]))
                  (by unfold ehSNetTail; rw [hv]; simp) (fun t => ?_)).elim
                simp [ehSNetOpt, ehPtList]
      · cases hv : n.rects with
        | nil => rfl
        | cons r rs =>
            exact (hb [.kw .rect, .word r.1, .num r.2.1, .num r.2.2.1, .num r.2.2.2.1, .num r.2.2.2.2]
              (by unfold ehSNetTail; rw [hv]; simp) (fun t => rfl)).elim
      · intro v hv
        apply Classical.byContradiction
        intro hbig
        have hv : n.voltage = some v := hv
        refine hb [.kw .voltage, ehVolt v] (by unfold ehSNetTail; rw [hv]; simp) (fun t => ?_)
        rw [ehVolt, if_neg hbig]; rfl
    obtain ⟨o, ho, h⟩ := key
    exact foldlM_bad _ _ _ o ho h
  · rw [ehSNet_eq, ehReadSNet]
    obtain ⟨as, q, h⟩ := synth_key n.conns hc (n.wires.flatMap (fun w => w.1.text ++ ehElems true w.2) ++
      ((ehSNetTail n).flatMap (fun o => .plus :: o) ++ [.semi]))
    rw [h]
    generalize (ehConns n.conns ++ (n.wires.flatMap (fun w => w.1.text ++ ehElems true w.2) ++
      ((ehSNetTail n).flatMap (fun o => EhTok.plus :: o) ++ [EhTok.semi]))).length = L
    cases L with
    | zero => simp [ehSNetOpts]
    | succ L => simp [ehSNetOpts, ehWireHead, List.takeWhile_cons, ehPlainB, ehSNetOpt]

open Classical in
/-- C188: what is written for a special net is read back as that net, without the rectangles and virtual points inside
its wires, its vias and `STYLE`, with spacings, frequency and numeric properties of six digits; it is no statement of
DEF at all exactly when a connection is synthesized, the net has a polygon or a rectangle, or a voltage of a million. -/
theorem c188_snet_partial (ptype : String → Option EhPT) (n : EhSNet) (hok : n.Ok ptype)
    (hpoly : ∀ p ∈ n.polys, p.2 ≠ []) :
    ehReadSNet ptype (ehSNet n) = if n.Readable then some n.echoed else none := by
  split
  · next h => exact snet_readable ptype n hok h
  · next h => exact snet_unreadable ptype n hok h hpoly

/-- C188: a special net whose wires have no rectangles and no virtual points keeps its connections and every wire. -/
theorem c188_wires (ptype : String → Option EhPT) (n m : EhSNet) (hok : n.Ok ptype) (hpoly : ∀ p ∈ n.polys, p.2 ≠ [])
    (hplain : ∀ w ∈ n.wires, ∀ e ∈ w.2, (∀ a b c d, e ≠ .rect a b c d) ∧ ∀ x y, e ≠ .virt x y)
    (h : ehReadSNet ptype (ehSNet n) = some m) :
    m.name = n.name ∧ m.conns = n.conns ∧ m.wires = n.wires := by
  classical
  rw [c188_snet_partial ptype n hok hpoly] at h
  split at h
  · simp only [Option.some.injEq] at h
    subst h
    have hw : n.echoed.wires = n.wires := by
      show n.wires.map (fun w => (w.1, w.2.filter EhSp.kept)) = n.wires
      conv => rhs; rw [← List.map_id n.wires]
      apply List.map_congr_left
      intro w hw
      obtain ⟨k, es⟩ := w
      have : es.filter EhSp.kept = es := by
        rw [List.filter_eq_self]
        intro e he
        obtain ⟨h1, h2⟩ := hplain (k, es) hw e he
        cases e with
        | rect a b c d => exact absurd rfl (h1 a b c d)
        | virt x y => exact absurd rfl (h2 x y)
        | _ => rfl
      simp [this]
    exact ⟨rfl, rfl, hw⟩
  · cases h

/-- C188 fails: no rectangle inside a wire, no via of the net and no virtual point is ever written. -/
theorem c188_lost (ptype : String → Option EhPT) (n m : EhSNet) (hok : n.Ok ptype) (hpoly : ∀ p ∈ n.polys, p.2 ≠ [])
    (h : ehReadSNet ptype (ehSNet n) = some m) :
    m.vias = [] ∧ ∀ w ∈ m.wires, ∀ e ∈ w.2, (∀ a b c d, e ≠ .rect a b c d) ∧ ∀ x y, e ≠ .virt x y := by
  classical
  rw [c188_snet_partial ptype n hok hpoly] at h
  split at h
  · simp only [Option.some.injEq] at h
    subst h
    refine ⟨rfl, ?_⟩
    intro w hw e he
    obtain ⟨v, _, rfl⟩ := List.mem_map.1 hw
    have := (List.mem_filter.1 he).2
    constructor
    · intro a b c d hh; subst hh; simp [EhSp.kept] at this
    · intro x y hh; subst hh; simp [EhSp.kept] at this
  · cases h

/-- a wire with a gap from (100, 0) to (200, 0) -/
def exEhGap : EhSNet :=
  { name := "VDD", conns := [("*", "VDD", false)],
    wires := [(.routed, [.layer "M1", .width 60, .shape "STRIPE", .point 0 0, .point 100 0, .virt 200 0, .point 300 0])] }

/-- C188 fails: where a wire has a gap, bridged by a virtual point, the written wire has metal across the gap. -/
theorem c188_virtual : ∃ m, ehReadSNet (fun _ => none) (ehSNet exEhGap) = some m ∧
    exEhGap.wires.map (fun w => ehSegs none w.2) = [[((0, 0), (100, 0)), ((200, 0), (300, 0))]] ∧
    m.wires.map (fun w => ehSegs none w.2) = [[((0, 0), (100, 0)), ((100, 0), (300, 0))]] :=
  ⟨{ exEhGap with wires := [(.routed, [.layer "M1", .width 60, .shape "STRIPE", .point 0 0, .point 100 0,
      .point 300 0])] }, by decide +kernel, by decide +kernel, by decide +kernel⟩

/-- a net with two stripes, vias in an array, a shield and a spacing -/
def exEhSNet : EhSNet :=
  { name := "VSS", conns := [("u1", "VSS", false)],
    wires := [(.fixed, [.layer "M5", .width 400, .shape "STRIPE", .style 1, .point 0 0, .flush 9000 0 200,
                        .layer "M4", .width 0, .shape "STRIPE", .point 0 0, .via "V45", .rot 4, .data 2 3 100 200]),
              (.shield "clk", [.layer "M3", .width 60, .point 0 0, .point 0 500])],
    props := [("p", .str "x", .s)], spacings := [("M5", 12345678, some (1, 2))], voltage := some 900, use := some "GROUND" }

example : exEhSNet.Ok (fun s => if s = "p" then some .s else none) ∧ exEhSNet.Readable ∧
    ehReadSNet (fun s => if s = "p" then some .s else none) (ehSNet exEhSNet)
      = some { exEhSNet with spacings := [("M5", 12345700, some (1, 2))] } := by
  refine ⟨⟨?_, ?_⟩, ⟨?_, rfl, rfl, ?_⟩, by decide +kernel⟩
  · simp [exEhSNet, ehSpOk]
  · simp [exEhSNet]
  · simp [exEhSNet]
  · simp [exEhSNet]

/-- the grammar accepts a rectangle, a polygon and a via of the net when they are written as DEF says -/
example : (ehReadSNet (fun _ => none) [.minus, .word "n", .plus, .kw .routed, .plus, .kw .shape, .word "STRIPE", .plus,
    .kw .rect, .word "M1", .lp, .num 0, .num 0, .rp, .lp, .num 9, .num 9, .rp, .plus, .kw .polygon, .word "M1", .lp,
    .num 0, .num 0, .rp, .lp, .num 9, .num 9, .rp, .lp, .num 0, .num 9, .rp, .plus, .kw .via, .word "V", .ori .n, .lp,
    .num 0, .num 0, .rp, .semi]).isSome = true := by
  decide +kernel

end TR
