import Verif.Whole.Props
import Verif.Thr.TaProps
import Verif.PaRun.RunProps
/-! # The whole program with threads: property C180

Models how the parallel loops of the program follow each other: the access points of pins (`FlexPA::prepPoint`, src/pa/FlexPA_prep.cpp:1120-1201), the patterns of cells and of
rows of cells (`FlexPA::prepPattern`, 1203-1332), the passes of track assignment (`FlexTA::main`, src/ta/FlexTA.cpp:245-400), detailed routing and the written file.

What the program computes between the loops, and what a single round of a loop computes, may be anything, as long as it is a function of what is handed over: the access points of the
pins, the results of the rounds in the order of the loop (each round stores its result in a place of its own: `uniqueInstPatterns[i]`, 1215-1229; the access points of the cells of its
row, 1505-1516), the places of the wires, and the design. -/
namespace TR

/-- what is read of pin access: the points of all pins of all instances, and of all terminals -/
def paView (D : PaDesign) (st : PaStore) : List (List (List AccPt)) × List (List (List AccPt)) :=
  (D.insts.map (fun i => (D.pins i.block).map (D.access st i)), D.terms.map (fun t => (D.ioPins t).map (fun k => st (.io t k))))

abbrev PaView := List (List (List AccPt)) × List (List (List AccPt))

/-- a pass of track assignment: its panels, and the program of a panel with the places it leaves — src/ta/FlexTA.cpp:128-245. -/
structure FlowTa (S : Type) where
  panels : TaPlaces → List TaPanelIn
  prog : TaProg S
  out : S → TaPlaces

/-- the passes one after the other, each with panels in batches — src/ta/FlexTA.cpp:245-400. -/
inductive FlowTaRun {S : Type} (n : Nat) : TaPlaces → List (FlowTa S) → TaPlaces → Prop where
  | nil (pl : TaPlaces) : FlowTaRun n pl [] pl
  | cons {pl c : TaPlaces} {b : TaPlaces × Nat} {p : FlowTa S} {ps : List (FlowTa S)} : ThrTaPass p.prog p.out (pl, 0) (taGroups n (p.panels pl)) b → FlowTaRun n b.1 ps c →
      FlowTaRun n pl (p :: ps) c

/-- the program: what happens between and within the loops -/
structure Flow (A B S P F : Type) where
  D : PaDesign
  /-- patterns of the unique instances — src/pa/FlexPA_prep.cpp:1217-1245 -/
  pat : PaView → List (ThrTask PaView A Unit)
  /-- patterns of the rows — src/pa/FlexPA_prep.cpp:1305-1325 -/
  row : PaView → List A → List (ThrTask (PaView × List A) B Unit)
  places : PaView → List B → TaPlaces
  passes : PaView → List B → List (FlowTa S)
  env : PaView → List B → TaPlaces → RunEnv
  start : PaView → List B → TaPlaces → RunSt
  prog : PaView → List B → TaPlaces → DrProg P
  file : PaView → List B → TaPlaces → DesignSt → F

/-- an execution with `n` threads and what it writes; `none`: the program exits — src/FlexRoute.cpp:66-101, src/pa/FlexPA.cpp:48-60. -/
def Flow.Run {A B S P F : Type} (X : Flow A B S P F) (n : Nat) (out : Option F) : Prop :=
  ∃ st, X.D.Run st ∧ ∃ a, ThrLoop (paView X.D st) (X.pat (paView X.D st)) a ∧
    ∃ b, ThrLoop (paView X.D st, a.priv) (X.row (paView X.D st) a.priv) b ∧
    ∃ pl, FlowTaRun n (X.places (paView X.D st) b.priv) (X.passes (paView X.D st) b.priv) pl ∧
    ∃ o, ThrMain (X.env (paView X.D st) b.priv pl) (X.prog (paView X.D st) b.priv pl) (X.start (paView X.D st) b.priv pl) o ∧
      out = o.map (fun s => X.file (paView X.D st) b.priv pl s.d)

/-- the view of the access points is the same after all executions -/
theorem paView_unique {D : PaDesign} (h : D.Sound) {st st' : PaStore} (hr : D.Run st) (hr' : D.Run st') : paView D st = paView D st' := by
  obtain ⟨h1, h2⟩ := c171_deterministic h hr hr'
  unfold paView
  refine Prod.ext ?_ ?_
  · exact List.map_congr_left (fun i hi => List.map_congr_left (fun k hk => h1 i hi k hk))
  · exact List.map_congr_left (fun t ht => List.map_congr_left (fun k hk => h2 t ht k hk))

theorem taGroup_unique {S : Type} {T : TaProg S} {out : S → TaPlaces} {pl a b : TaPlaces × Nat} {ps : List TaPanelIn} (ha : ThrTaGroup T out pl ps a) (hb : ThrTaGroup T out pl ps b) : a = b := by
  obtain ⟨s, h1, h2, h3⟩ := ha
  obtain ⟨t, g1, g2, g3⟩ := hb
  obtain ⟨e1, e2⟩ := c177_loop_unique h1 g1
  refine Prod.ext ?_ ?_
  · rw [h2, g2, e1]
  · rw [h3, g3, perm_sum_nat e2]

theorem taPass_unique {S : Type} {T : TaProg S} {out : S → TaPlaces} {pl a : TaPlaces × Nat} {gs : List (List TaPanelIn)} (ha : ThrTaPass T out pl gs a) :
    ∀ {b}, ThrTaPass T out pl gs b → a = b := by
  induction ha with
  | nil _ => intro b hb; cases hb; rfl
  | cons h1 _ ih =>
    intro b hb
    cases hb with
    | cons g1 g2 => rw [taGroup_unique h1 g1] at ih; exact ih g2

theorem flowTa_unique {S : Type} {n m : Nat} (hn : n ≠ 1) (hm : m ≠ 1) {pl a : TaPlaces} {ps : List (FlowTa S)} (ha : FlowTaRun n pl ps a) : ∀ {b}, FlowTaRun m pl ps b → a = b := by
  induction ha with
  | nil _ => intro b hb; cases hb; rfl
  | cons h1 _ ih =>
    intro b hb
    cases hb with
    | cons g1 g2 =>
      unfold taGroups at h1 g1
      rw [if_neg hn] at h1
      rw [if_neg hm] at g1
      rw [taPass_unique h1 g1] at ih
      exact ih g2

/-- **C180.** Two executions of the program on the same input, each with any number of threads other than one and any schedule, write the same file, or both exit. -/
theorem c180_same_file_partial {A B S P F : Type} {X : Flow A B S P F} (hD : X.D.Sound) (hq : ∀ v b pl, DrDescribes (X.env v b pl) (X.prog v b pl))
    {n m : Nat} (hn : n ≠ 1) (hm : m ≠ 1) {f g : Option F} (hf : X.Run n f) (hg : X.Run m g) : f = g := by
  obtain ⟨s1, r1, a1, ha1, b1, hb1, p1, hp1, o1, ho1, e1⟩ := hf
  obtain ⟨s2, r2, a2, ha2, b2, hb2, p2, hp2, o2, ho2, e2⟩ := hg
  have ev := paView_unique hD r1 r2
  rw [ev] at ha1 hb1 hp1 ho1 e1
  have ea := (c177_loop_unique ha1 ha2).1
  rw [ea] at hb1
  have eb := (c177_loop_unique hb1 hb2).1
  rw [eb] at hp1 ho1 e1
  have ep := flowTa_unique hn hm hp1 hp2
  rw [ep] at ho1 e1
  rw [e1, e2, c177_detailed_routing (hq _ _ _) ho1, c177_detailed_routing (hq _ _ _) ho2]

/-- with the same number of threads, also one, the schedule makes no difference -/
theorem flowTa_unique_same {S : Type} {n : Nat} {pl a : TaPlaces} {ps : List (FlowTa S)} (ha : FlowTaRun n pl ps a) : ∀ {b}, FlowTaRun n pl ps b → a = b := by
  induction ha with
  | nil _ => intro b hb; cases hb; rfl
  | cons h1 _ ih =>
    intro b hb
    cases hb with
    | cons g1 g2 => rw [taPass_unique h1 g1] at ih; exact ih g2

/-- **C180 (repeated).** Two executions with the same number of threads write the same file, or both exit. -/
theorem c180_repeated {A B S P F : Type} {X : Flow A B S P F} (hD : X.D.Sound) (hq : ∀ v b pl, DrDescribes (X.env v b pl) (X.prog v b pl))
    {n : Nat} {f g : Option F} (hf : X.Run n f) (hg : X.Run n g) : f = g := by
  obtain ⟨s1, r1, a1, ha1, b1, hb1, p1, hp1, o1, ho1, e1⟩ := hf
  obtain ⟨s2, r2, a2, ha2, b2, hb2, p2, hp2, o2, ho2, e2⟩ := hg
  have ev := paView_unique hD r1 r2
  rw [ev] at ha1 hb1 hp1 ho1 e1
  have ea := (c177_loop_unique ha1 ha2).1
  rw [ea] at hb1
  have eb := (c177_loop_unique hb1 hb2).1
  rw [eb] at hp1 ho1 e1
  have ep := flowTa_unique_same hp1 hp2
  rw [ep] at ho1 e1
  rw [e1, e2, c177_detailed_routing (hq _ _ _) ho1, c177_detailed_routing (hq _ _ _) ho2]

/-- the rounds of all loops come to an end when executed alone -/
def Flow.Ends {A B S P F : Type} (X : Flow A B S P F) : Prop :=
  (∀ v, ∀ t ∈ X.pat v, ∃ s g, ThrSolo v t s g) ∧ (∀ v a, ∀ t ∈ X.row v a, ∃ s g, ThrSolo (v, a) t s g) ∧
    (∀ v b, ∀ p ∈ X.passes v b, ∀ q pl, ∃ s g, ThrSolo pl (p.prog q) s g) ∧ ∀ v b pl, DrEnds (X.prog v b pl)

theorem interleave_any {α : Type} : ∀ (n : Nat) (ts : List (List α)), ts.flatten.length = n → ∃ es, Interleave ts es
  | 0, ts, h => ⟨[], .done ts (by
      have : ts.flatten = [] := List.length_eq_zero_iff.1 h
      exact List.flatten_eq_nil_iff.1 this)⟩
  | n + 1, ts, h => by
    have : ∃ t ∈ ts, t ≠ [] := by
      apply Classical.byContradiction
      intro hc
      have : ts.flatten = [] := List.flatten_eq_nil_iff.2 (fun t ht => Classical.byContradiction (fun hn => hc ⟨t, ht, hn⟩))
      rw [this] at h
      exact absurd h (by simp)
    obtain ⟨t, ht, hn⟩ := this
    obtain ⟨i, hi⟩ := List.getElem?_of_mem ht
    cases t with
    | nil => exact absurd rfl hn
    | cons x t =>
      have hl : (ts.set i t).flatten.length = n := by
        have e : ∀ (l : List (List α)) (i : Nat), l[i]? = some (x :: t) → (l.set i t).flatten.length + 1 = l.flatten.length := by
          intro l
          induction l with
          | nil => intro i h; simp at h
          | cons a l ih =>
            intro i h
            cases i with
            | zero => simp at h; subst h; simp
            | succ i => have := ih i (by simpa using h); simp only [List.set_cons_succ, List.flatten_cons, List.length_append]; omega
        have := e ts i hi
        omega
      obtain ⟨es, he⟩ := interleave_any n _ hl
      exact ⟨x :: es, .step ts i x t es hi he⟩

theorem thrLoop_any {D S F : Type} {d : D} {ts : List (ThrTask D S F)} (h : ∀ t ∈ ts, ∃ s g, ThrSolo d t s g) : ∃ st, ThrLoop d ts st := by
  obtain ⟨st, _, h2⟩ := c177_loop_ends h (.refl _)
  exact ⟨st, h2⟩

theorem taPass_any {S : Type} {T : TaProg S} {out : S → TaPlaces} (h : ∀ q pl, ∃ s g, ThrSolo pl (T q) s g) : ∀ (gs : List (List TaPanelIn)) (a : TaPlaces × Nat), ∃ b, ThrTaPass T out a gs b
  | [], a => ⟨a, .nil a⟩
  | ps :: gs, a => by
    obtain ⟨st, hs⟩ := thrLoop_any (d := a.1) (ts := ps.map T) (by
      intro t ht
      obtain ⟨q, _, rfl⟩ := List.mem_map.1 ht
      exact h q a.1)
    obtain ⟨b, hb⟩ := taPass_any h gs ((ps.zip st.priv).foldl (fun o x => panelEnd x.1 (out x.2) o) a.1, a.2 + st.got.sum)
    exact ⟨b, .cons ⟨st, hs, rfl, rfl⟩ hb⟩

theorem flowTa_any {S : Type} (n : Nat) : ∀ (ps : List (FlowTa S)) (pl : TaPlaces), (∀ p ∈ ps, ∀ q pl, ∃ s g, ThrSolo pl (p.prog q) s g) → ∃ pl', FlowTaRun n pl ps pl'
  | [], pl, _ => ⟨pl, .nil pl⟩
  | p :: ps, pl, h => by
    obtain ⟨b, hb⟩ := taPass_any (out := p.out) (h p List.mem_cons_self) (taGroups n (p.panels pl)) (pl, 0)
    obtain ⟨c, hc⟩ := flowTa_any n ps b.1 (fun p' hp => h p' (List.mem_cons_of_mem _ hp))
    exact ⟨c, .cons hb hc⟩

/-- **C180 (an execution exists).** If the rounds of the loops come to an end when executed alone, the program does, with every number of threads. -/
theorem c180_runs {A B S P F : Type} {X : Flow A B S P F} (he : X.Ends) (n : Nat) : ∃ out, X.Run n out := by
  obtain ⟨h1, h2, h3, h4⟩ := he
  obtain ⟨es, hes⟩ := interleave_any _ (X.D.unique.map X.D.cellTask) rfl
  obtain ⟨fs, hfs⟩ := interleave_any _ (X.D.terms.map X.D.ioTask) rfl
  obtain ⟨a, ha⟩ := thrLoop_any (h1 (paView X.D (X.D.revert ((es ++ fs).foldl paPush fun _ => []))))
  obtain ⟨b, hb⟩ := thrLoop_any (h2 (paView X.D (X.D.revert ((es ++ fs).foldl paPush fun _ => []))) a.priv)
  obtain ⟨pl, hpl⟩ := flowTa_any n _ (X.places (paView X.D (X.D.revert ((es ++ fs).foldl paPush fun _ => []))) b.priv) (h3 (paView X.D (X.D.revert ((es ++ fs).foldl paPush fun _ => []))) b.priv)
  obtain ⟨o, ho⟩ := c177_runs (R := X.env _ b.priv pl) (h4 _ b.priv pl) (X.start (paView X.D (X.D.revert ((es ++ fs).foldl paPush fun _ => []))) b.priv pl)
  exact ⟨_, _, ⟨es, fs, hes, hfs, rfl⟩, a, ha, b, hb, pl, hpl, o, ho, rfl⟩

/-! ### a program -/

/-- a program that does in one step what a panel does -/
def flowExRes (pl : TaPlaces) (p : TaPanelIn) : TaPlaces × Nat := (panelRun exNet 2 pl p).getD (pl, 0)
def flowExTa : TaProg (Option TaPlaces) := fun p => ⟨none, fun pl s => s.elim (some (some (flowExRes pl p).1, [(flowExRes pl p).2])) (fun _ => none)⟩

/-- two unique instances and one row whose rounds take one step, the panels and wires of `thrLow` and `thrHigh`, and the routing of `wholeEnv`; the file tells the tracks of the two wires and the
number of wires of detailed routing -/
def exFlow : Flow (Option Nat) (Option Nat) (Option TaPlaces) (Option (WorkerResult × Bool)) (List (Option Int) × Nat) where
  D := exPa
  pat v := [⟨none, fun _ s => s.elim (some (some v.1.length, [()])) (fun _ => none)⟩, ⟨none, fun _ s => s.elim (some (some v.2.length, [])) (fun _ => none)⟩]
  row _ a := [⟨none, fun _ s => s.elim (some (some a.length, [()])) (fun _ => none)⟩]
  places _ _ := thrWires
  passes _ _ := [⟨fun _ => [thrLow, thrHigh], flowExTa, fun s => s.getD (fun _ => [])⟩]
  env _ _ _ := wholeEnv
  start _ _ _ := wholeStart
  prog _ _ _ := thrExProg wholeEnv
  file _ _ pl d := ([trackOf true (pl 0), trackOf true (pl 1)], d.objs.length)

theorem exFlow_describes (v : PaView) (b : List (Option Nat)) (pl : TaPlaces) : DrDescribes (exFlow.env v b pl) (exFlow.prog v b pl) := (thrEx_meets whole_ok).1

theorem thrOne {D S F : Type} {d : D} {t : ThrTask D S F} {s : S} {g : List F} (h : t.step d t.start = some (s, g)) (he : t.step d s = none) : ThrSolo d t s g := by
  have h0 : ThrReach d t t.start [] := .start
  have h1 := ThrReach.step h0 h
  rw [List.nil_append] at h1
  exact ⟨h1, he⟩

theorem exFlow_pat (v : PaView) : ∀ t ∈ exFlow.pat v, ∃ s g, ThrSolo v t s g := by
  intro t ht
  simp only [exFlow, List.mem_cons, List.not_mem_nil, or_false] at ht
  rcases ht with rfl | rfl
  · exact ⟨some v.1.length, [()], thrOne rfl rfl⟩
  · exact ⟨some v.2.length, [], thrOne rfl rfl⟩

theorem exFlow_row (v : PaView) (a : List (Option Nat)) : ∀ t ∈ exFlow.row v a, ∃ s g, ThrSolo (v, a) t s g := by
  intro t ht
  simp only [exFlow, List.mem_cons, List.not_mem_nil, or_false] at ht
  subst ht
  exact ⟨some a.length, [()], thrOne rfl rfl⟩

theorem flowExTa_solo (p : TaPanelIn) (pl : TaPlaces) : ThrSolo pl (flowExTa p) (some (flowExRes pl p).1) [(flowExRes pl p).2] := thrOne rfl rfl

/-- the program meets the hypotheses of the theorems -/
theorem exFlow_ends : exFlow.Ends := by
  refine ⟨exFlow_pat, exFlow_row, ?_, fun _ _ _ => (thrEx_meets whole_ok).2⟩
  intro v b p hp q pl
  have : p = ⟨fun _ => [thrLow, thrHigh], flowExTa, fun s => s.getD (fun _ => [])⟩ := by simpa [exFlow] using hp
  subst this
  exact ⟨_, _, flowExTa_solo q pl⟩

example : ∃ f, exFlow.Run 4 f ∧ ∀ m g, m ≠ 1 → exFlow.Run m g → g = f := by
  obtain ⟨f, hf⟩ := c180_runs exFlow_ends 4
  exact ⟨f, hf, fun m g hm hg => c180_same_file_partial exPa_sound exFlow_describes hm (by decide) hg hf⟩

/-- the passes of the example -/
def flowExGroup (a : TaPlaces) (ps : List TaPanelIn) : TaPlaces := ps.foldl (fun o p => panelEnd p (flowExRes a p).1 o) a

theorem flowEx_group {a b : TaPlaces × Nat} {ps : List TaPanelIn} (h : ThrTaGroup flowExTa (fun s => s.getD (fun _ => [])) a ps b) : b.1 = flowExGroup a.1 ps := by
  obtain ⟨st, h1, h2, _⟩ := h
  obtain ⟨l1, gs, l2, _, h4⟩ := c177_loop h1
  rw [List.length_map] at l1 l2
  rw [h2]
  refine foldl_zip_eq (fun o p s => panelEnd p (Option.getD s (fun _ => [])) o) (fun p => some (flowExRes a.1 p).1) ps st.priv a.1 l1 ?_
  intro i p s hp hs
  have hi : i < gs.length := by rw [l2]; exact (List.getElem?_eq_some_iff.1 hp).1
  have := h4 i (flowExTa p) s gs[i] (by rw [List.getElem?_map, hp]; rfl) hs (List.getElem?_eq_getElem hi)
  exact (solo_unique this (flowExTa_solo p a.1)).1

theorem flowEx_pass {a b : TaPlaces × Nat} {gs : List (List TaPanelIn)} (h : ThrTaPass flowExTa (fun s => s.getD (fun _ => [])) a gs b) : b.1 = gs.foldl flowExGroup a.1 := by
  induction h with
  | nil _ => rfl
  | cons h1 _ ih => rw [List.foldl_cons, ← flowEx_group h1]; exact ih

theorem flowEx_run {n : Nat} {f : Option (List (Option Int) × Nat)} (h : exFlow.Run n f) :
    ∃ k, f = some ([trackOf true ((taGroups n [thrLow, thrHigh]).foldl flowExGroup thrWires 0), trackOf true ((taGroups n [thrLow, thrHigh]).foldl flowExGroup thrWires 1)], k) := by
  obtain ⟨st, _, a, _, b, _, pl, hp, o, ho, e⟩ := h
  have hd := c177_detailed_routing (exFlow_describes (paView exFlow.D st) b.priv pl) ho
  cases hp with
  | cons h1 h2 =>
    cases h2
    have e1 := flowEx_pass h1
    have : runMain wholeEnv wholeStart ≠ none := by
      have h : (runMain wholeEnv wholeStart).isSome = true := by decide +kernel
      intro hc
      rw [hc] at h
      exact absurd h (by decide)
    cases hm : runMain wholeEnv wholeStart with
    | none => exact absurd hm this
    | some s =>
      refine ⟨s.d.objs.length, ?_⟩
      have hd' : o = some s := hd.trans hm
      rw [e, hd']
      show some ([trackOf true (_), trackOf true (_)], s.d.objs.length) = _
      rw [e1]
      rfl

/-- **C180 (finding).** With one thread the program may write another file than with two. -/
theorem c180_one_thread : ∃ f g, exFlow.Run 1 f ∧ exFlow.Run 2 g ∧ f ≠ g := by
  obtain ⟨f, hf⟩ := c180_runs exFlow_ends 1
  obtain ⟨g, hg⟩ := c180_runs exFlow_ends 2
  refine ⟨f, g, hf, hg, ?_⟩
  obtain ⟨k, h1⟩ := flowEx_run hf
  obtain ⟨m, h2⟩ := flowEx_run hg
  intro e
  rw [h1, h2] at e
  have e' := congrArg (fun o => Option.map Prod.fst o) e
  revert e'
  simp only [Option.map_some]
  decide +kernel

end TR
