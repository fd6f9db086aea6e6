import Verif.TaInit.Lemmas
/-! # The passes over the panels -/
namespace TR

/-- the data of a guide that do not change -/
def SameGuide (g g' : TGuide) : Prop := g'.net = g.net ∧ g'.layer = g.layer ∧ g'.b = g.b ∧ g'.e = g.e

theorem filter_set {α : Type} {p : α → Bool} {x y : α} : ∀ {l : List α} {i : Nat}, l[i]? = some y → p y = false → p x = false → (l.set i x).filter p = l.filter p := by
  intro l
  induction l with
  | nil => intro i h; simp at h
  | cons a l ih =>
    intro i h hy hx
    cases i with
    | zero => simp only [List.getElem?_cons_zero, Option.some.injEq] at h; subst h; rw [List.set_cons_zero]; simp [hx, hy]
    | succ k =>
      rw [List.getElem?_cons_succ] at h
      rw [List.set_cons_succ, List.filter_cons, List.filter_cons, ih h hy hx]

theorem accLoop_congr {t : GrPin} {ok ok' : Point → Int → Bool} (h : ∀ q l, ok q l = ok' q l) (ps : List Bool) (k : Nat) : accLoop t ok ps k = accLoop t ok' ps k := by
  rw [show ok = ok' from funext fun q => funext fun l => h q l]

/-- the wire of a guide depends only on its fixed data and on the guides of the other direction -/
theorem wireInit_congr {E : TaEnv} {h : Bool} {rb : Box} {gs gs' : List TGuide} {g g' : TGuide} (hg : SameGuide g g')
    (hd : ∀ p, guidesAt gs' p (g.layer - 2) = guidesAt gs p (g.layer - 2)) (hu : ∀ p, guidesAt gs' p (g.layer + 2) = guidesAt gs p (g.layer + 2)) :
    wireInit E h rb gs' g' = wireInit E h rb gs g := by
  obtain ⟨h1, h2, h3, h4⟩ := hg
  unfold wireInit pinWire genericWire nbrGuides pinCoord
  simp only [h1, h2, h3, h4, hd, hu]

/-- what holds of the guides `o` while the panels of direction `h` are assigned, from the guides `gs`; `done`: panels of which guides were written -/
structure DirInv (E : TaEnv) (h : Bool) (tr : Nat → Int) (gs : List TGuide) (ps : List (Int × Box × Box)) (done : Nat → Prop) (o : List TGuide) : Prop where
  len : o.length = gs.length
  other : ∀ p l, E.dir l ≠ h → guidesAt o p l = guidesAt gs p l
  each : ∀ (i : Nat) (g : TGuide), gs[i]? = some g → ∃ g', o[i]? = some g' ∧ SameGuide g g' ∧ (E.dir g.layer ≠ h → g' = g) ∧
    (g' = g ∨ ∃ p ∈ ps, g'.routes = [(g.layer, ptAC h (wireInit E h p.2.1 gs g).a1 (tr i), ptAC h (wireInit E h p.2.1 gs g).a2 (tr i))]) ∧
    (done i → ∃ p ∈ ps, g'.routes = [(g.layer, ptAC h (wireInit E h p.2.1 gs g).a1 (tr i), ptAC h (wireInit E h p.2.1 gs g).a2 (tr i))])

theorem dirInv_mono {E : TaEnv} {h : Bool} {tr : Nat → Int} {gs : List TGuide} {ps : List (Int × Box × Box)} {d d' : Nat → Prop} {o : List TGuide}
    (hi : DirInv E h tr gs ps d o) (hd : ∀ i, d' i → d i) : DirInv E h tr gs ps d' o := by
  refine ⟨hi.len, hi.other, fun i g hg => ?_⟩
  obtain ⟨g', h1, h2, h3, h4, h5⟩ := hi.each i g hg
  exact ⟨g', h1, h2, h3, h4, fun hh => h5 (hd i hh)⟩

variable {E : TaEnv} {h : Bool} {tr : Nat → Int} {gs : List TGuide} {ps : List (Int × Box × Box)}

theorem saved_inv (ht : ∀ g ∈ gs, E.dir (g.layer - 2) ≠ E.dir g.layer ∧ E.dir (g.layer + 2) ≠ E.dir g.layer)
    {now o : List TGuide} {d d' : Nat → Prop} (hn : DirInv E h tr gs ps d' now) (ho : DirInv E h tr gs ps d o)
    {p : Int × Box × Box} (hp : p ∈ ps) {i : Nat} {g : TGuide} (hg : now[i]? = some g) (hdir : E.dir g.layer = h) :
    DirInv E h tr gs ps (fun k => d k ∨ k = i) (o.set i (saved E h p.2.1 now g (tr i))) := by
  have hlt : i < gs.length := by
    rw [← hn.len]; exact (List.getElem?_eq_some_iff.1 hg).1
  obtain ⟨g0, hg0⟩ : ∃ g0, gs[i]? = some g0 := ⟨gs[i], List.getElem?_eq_getElem hlt⟩
  obtain ⟨gn, n1, n2, n3, n4, _⟩ := hn.each i g0 hg0
  rw [hg] at n1; cases n1
  obtain ⟨go, o1, o2, o3, o4, _⟩ := ho.each i g0 hg0
  obtain ⟨s1, s2, s3, s4⟩ := n2
  have hdir0 : E.dir g0.layer = h := by rw [← s2]; exact hdir
  obtain ⟨t1, t2⟩ := ht g0 (List.mem_of_getElem? hg0)
  have hw : wireInit E h p.2.1 now g = wireInit E h p.2.1 gs g0 :=
    wireInit_congr ⟨s1, s2, s3, s4⟩ (fun q => hn.other q _ (by rw [← hdir0]; exact t1)) (fun q => hn.other q _ (by rw [← hdir0]; exact t2))
  refine ⟨by rw [List.length_set]; exact ho.len, ?_, ?_⟩
  · intro q l hl
    rw [← ho.other q l hl]
    unfold guidesAt
    refine filter_set o1 ?_ ?_
    · rw [Bool.and_eq_false_iff]; left
      rw [decide_eq_false_iff_not, o2.2.1]
      intro he; exact hl (by rw [← he]; exact hdir0)
    · rw [Bool.and_eq_false_iff]; left
      rw [decide_eq_false_iff_not]
      unfold saved; dsimp only
      intro he; exact hl (by rw [← he]; exact hdir)
  · intro k gk hk
    by_cases hki : k = i
    · subst hki
      rw [hg0] at hk; cases hk
      have hlo : k < o.length := by rw [ho.len]; exact hlt
      have hr : (saved E h p.2.1 now g (tr k)).routes =
          [(g0.layer, ptAC h (wireInit E h p.2.1 gs g0).a1 (tr k), ptAC h (wireInit E h p.2.1 gs g0).a2 (tr k))] := by
        unfold saved; dsimp only; rw [hw, s2]
      refine ⟨saved E h p.2.1 now g (tr k), by rw [List.getElem?_set_self hlo], ⟨s1, s2, s3, s4⟩, fun hne => absurd hdir0 hne, .inr ⟨p, hp, hr⟩, fun _ => ⟨p, hp, hr⟩⟩
    · obtain ⟨g', h1, h2, h3, h4, h5⟩ := ho.each k gk hk
      refine ⟨g', by rw [List.getElem?_set_ne (Ne.symm hki)]; exact h1, h2, h3, h4, ?_⟩
      rintro (hh | hh)
      · exact h5 hh
      · exact absurd hh hki

theorem mem_panelGuides {rb eb : Box} {now : List TGuide} {i : Nat} : i ∈ panelGuides E h rb eb now ↔
    ∃ g, now[i]? = some g ∧ E.routing g.layer = true ∧ E.dir g.layer = h ∧ eb.meets g.box = true ∧ rb.holds g.box = true := by
  unfold panelGuides
  rw [List.mem_filter, List.mem_range]
  constructor
  · rintro ⟨hlt, hp⟩
    rw [List.getElem?_eq_getElem hlt] at hp
    simp only [Bool.and_eq_true, decide_eq_true_eq] at hp
    exact ⟨now[i], List.getElem?_eq_getElem hlt, hp.1.1.1, hp.1.1.2, hp.1.2, hp.2⟩
  · rintro ⟨g, hg, h1, h2, h3, h4⟩
    refine ⟨(List.getElem?_eq_some_iff.1 hg).1, ?_⟩
    rw [hg]
    simp only [Bool.and_eq_true, decide_eq_true_eq]
    exact ⟨⟨⟨h1, h2⟩, h3⟩, h4⟩

theorem runPanel_inv (ht : ∀ g ∈ gs, E.dir (g.layer - 2) ≠ E.dir g.layer ∧ E.dir (g.layer + 2) ≠ E.dir g.layer)
    {now o : List TGuide} {d d' : Nat → Prop} (hn : DirInv E h tr gs ps d' now) (ho : DirInv E h tr gs ps d o) {p : Int × Box × Box} (hp : p ∈ ps) :
    DirInv E h tr gs ps (fun k => d k ∨ k ∈ panelGuides E h p.2.1 p.2.2 now) (runPanel E h tr now o p) := by
  unfold runPanel
  have key : ∀ (L : List Nat) (o : List TGuide) (d : Nat → Prop), (∀ i ∈ L, ∃ g, now[i]? = some g ∧ E.dir g.layer = h) → DirInv E h tr gs ps d o →
      DirInv E h tr gs ps (fun k => d k ∨ k ∈ L) (L.foldl (fun o i => match now[i]? with | none => o | some g => o.set i (saved E h p.2.1 now g (tr i))) o) := by
    intro L
    induction L with
    | nil => intro o d _ ho; exact dirInv_mono ho (fun i hi => by rcases hi with hi | hi; exact hi; cases hi)
    | cons i L ih =>
      intro o d hL ho
      obtain ⟨g, hg, hdir⟩ := hL i List.mem_cons_self
      rw [List.foldl_cons]
      have h1 := saved_inv ht hn ho hp hg hdir
      have h2 := ih (o.set i (saved E h p.2.1 now g (tr i))) _ (fun k hk => hL k (List.mem_cons_of_mem _ hk)) h1
      rw [hg]
      refine dirInv_mono h2 ?_
      rintro k (hk | hk)
      · exact .inl (.inl hk)
      · rcases List.mem_cons.1 hk with rfl | hk
        · exact .inl (.inr rfl)
        · exact .inr hk
  refine key _ o d ?_ ho
  intro i hi
  obtain ⟨g, hg, _, hd, _⟩ := mem_panelGuides.1 hi
  exact ⟨g, hg, hd⟩

/-- guides held by a panel -/
def HeldBy (E : TaEnv) (h : Bool) (gs : List TGuide) (p : Int × Box × Box) (i : Nat) : Prop :=
  ∃ g, gs[i]? = some g ∧ E.routing g.layer = true ∧ E.dir g.layer = h ∧ p.2.2.meets g.box = true ∧ p.2.1.holds g.box = true

theorem held_panel {now : List TGuide} {d : Nat → Prop} (hn : DirInv E h tr gs ps d now) {p : Int × Box × Box} {i : Nat} (hh : HeldBy E h gs p i) :
    i ∈ panelGuides E h p.2.1 p.2.2 now := by
  obtain ⟨g, hg, h1, h2, h3, h4⟩ := hh
  obtain ⟨g', k1, ⟨s1, s2, s3, s4⟩, _⟩ := hn.each i g hg
  rw [mem_panelGuides]
  have hb : g'.box = g.box := by unfold TGuide.box; rw [s3, s4]
  exact ⟨g', k1, by rw [s2]; exact h1, by rw [s2]; exact h2, by rw [hb]; exact h3, by rw [hb]; exact h4⟩

theorem runBatch_inv (ht : ∀ g ∈ gs, E.dir (g.layer - 2) ≠ E.dir g.layer ∧ E.dir (g.layer + 2) ≠ E.dir g.layer)
    {o : List TGuide} {d : Nat → Prop} (ho : DirInv E h tr gs ps d o) {B : List (Int × Box × Box)} (hB : ∀ p ∈ B, p ∈ ps) :
    DirInv E h tr gs ps (fun k => d k ∨ ∃ p ∈ B, HeldBy E h gs p k) (runTaBatch E h tr o B) := by
  unfold runTaBatch
  have key : ∀ (B : List (Int × Box × Box)) (o' : List TGuide) (d' : Nat → Prop), (∀ p ∈ B, p ∈ ps) → DirInv E h tr gs ps d' o' →
      DirInv E h tr gs ps (fun k => d' k ∨ ∃ p ∈ B, HeldBy E h gs p k) (B.foldl (runPanel E h tr o) o') := by
    intro B
    induction B with
    | nil => intro o' d' _ ho'; exact dirInv_mono ho' (fun i hi => by rcases hi with hi | ⟨p, hp, _⟩; exact hi; cases hp)
    | cons p B ih =>
      intro o' d' hB ho'
      rw [List.foldl_cons]
      have h1 := runPanel_inv ht ho ho' (hB p List.mem_cons_self)
      refine dirInv_mono (ih _ _ (fun q hq => hB q (List.mem_cons_of_mem _ hq)) h1) ?_
      rintro k (hk | ⟨q, hq, hk⟩)
      · exact .inl (.inl hk)
      · rcases List.mem_cons.1 hq with rfl | hq
        · exact .inl (.inr (held_panel ho hk))
        · exact .inr ⟨q, hq, hk⟩
  exact key B o d hB ho

theorem runDir_inv (ht : ∀ g ∈ gs, E.dir (g.layer - 2) ≠ E.dir g.layer ∧ E.dir (g.layer + 2) ≠ E.dir g.layer)
    {Bs : List (List (Int × Box × Box))} (hB : ∀ B ∈ Bs, ∀ p ∈ B, p ∈ ps) :
    DirInv E h tr gs ps (fun k => ∃ B ∈ Bs, ∃ p ∈ B, HeldBy E h gs p k) (runDir E h tr Bs gs) := by
  unfold runDir
  have key : ∀ (Bs : List (List (Int × Box × Box))) (o : List TGuide) (d : Nat → Prop), (∀ B ∈ Bs, ∀ p ∈ B, p ∈ ps) → DirInv E h tr gs ps d o →
      DirInv E h tr gs ps (fun k => d k ∨ ∃ B ∈ Bs, ∃ p ∈ B, HeldBy E h gs p k) (Bs.foldl (runTaBatch E h tr) o) := by
    intro Bs
    induction Bs with
    | nil => intro o d _ ho; exact dirInv_mono ho (fun i hi => by rcases hi with hi | ⟨p, hp, _⟩; exact hi; cases hp)
    | cons B Bs ih =>
      intro o d hB ho
      rw [List.foldl_cons]
      have h1 := runBatch_inv ht ho (hB B List.mem_cons_self)
      refine dirInv_mono (ih _ _ (fun q hq => hB q (List.mem_cons_of_mem _ hq)) h1) ?_
      rintro k (hk | ⟨q, hq, hk⟩)
      · exact .inl (.inl hk)
      · rcases List.mem_cons.1 hq with rfl | hq
        · exact .inl (.inr hk)
        · exact .inr ⟨q, hq, hk⟩
  have h0 : DirInv E h tr gs ps (fun _ => False) gs := by
    refine ⟨rfl, fun _ _ _ => rfl, fun i g hg => ⟨g, hg, ⟨rfl, rfl, rfl, rfl⟩, fun _ => rfl, .inl rfl, fun hf => hf.elim⟩⟩
  exact dirInv_mono (key Bs gs _ hB h0) fun _ hi => .inr hi

end TR
