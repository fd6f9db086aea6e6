import Verif.TaInit.Grid
import Verif.TaInit.Fixed
/-! # Properties of setting up track assignment (C127–C130) -/
namespace TR

/-! ## C127: the wires of track assignment -/

variable {E : TaEnv} {C : Bool → Int → Prop} {h : Bool} {tr tr' : Nat → Int} {gs : List TGuide} {ps : List (Int × Box × Box)}
  {Bs : List (List (Int × Box × Box))}

/-- C127: however the panels of a direction are batched, after the pass over them every guide of the direction has exactly one wire, on its layer
and on the track that was chosen for it; the other guides are as before and no guide changed its place. -/
theorem c127_one_wire (hp : GuidePlan E C gs) (hh : PanelsHold E h ps gs) (hB : ∀ p, p ∈ ps ↔ ∃ B ∈ Bs, p ∈ B) :
    Laid E h tr (runDir E h tr Bs gs) ∧ SamePlaces gs (runDir E h tr Bs gs) ∧
    ∀ (i : Nat) (g : TGuide), gs[i]? = some g → E.dir g.layer ≠ h → (runDir E h tr Bs gs)[i]? = some g := by
  have hi := runDir_inv (h := h) (tr := tr) hp.turns (ps := ps) (Bs := Bs) (fun B hb p hpb => (hB p).2 ⟨B, hb, hpb⟩)
  have hback : ∀ (i : Nat) (g' : TGuide), (runDir E h tr Bs gs)[i]? = some g' → ∃ g, gs[i]? = some g := by
    intro i g' hg
    have : i < gs.length := by rw [← hi.len]; exact (List.getElem?_eq_some_iff.1 hg).1
    exact ⟨gs[i], List.getElem?_eq_getElem this⟩
  refine ⟨?_, ⟨hi.len, ?_⟩, ?_⟩
  · intro i g' hg' hd
    obtain ⟨g, hg⟩ := hback i g' hg'
    obtain ⟨g2, k1, ⟨s1, s2, s3, s4⟩, _, _, k5⟩ := hi.each i g hg
    rw [hg'] at k1; cases k1
    have hm := List.mem_of_getElem? hg
    obtain ⟨p, hpp, q1, q2⟩ := hh g hm (by rw [← s2]; exact hd)
    obtain ⟨B, hb, hpb⟩ := (hB p).1 hpp
    obtain ⟨p', _, hr⟩ := k5 ⟨B, hb, p, hpb, g, hg, hp.routing g hm, by rw [← s2]; exact hd, q2, q1⟩
    exact ⟨_, _, by rw [hr, s2], ptAC_c' _ _ _, ptAC_c' _ _ _⟩
  · intro i g g' hg hg'
    obtain ⟨g2, k1, hs, _⟩ := hi.each i g hg
    rw [hg'] at k1; cases k1
    exact hs
  · intro i g hg hd
    obtain ⟨g2, k1, _, k3, _⟩ := hi.each i g hg
    rw [k1, k3 hd]

theorem laid_nbr {g n : TGuide} {p : Point} (hp : GuidePlan E C gs) (hg : g ∈ gs) (hd : E.dir g.layer = h) (hn : TaNeighbour E g n p) :
    E.dir n.layer = !h := by
  obtain ⟨t1, t2⟩ := hp.turns g hg
  obtain ⟨_, _, h1 | h1⟩ := hn
  · rw [h1.1]; rw [hd] at t1; revert t1; cases E.dir (g.layer - 2) <;> cases h <;> simp
  · rw [h1.1]; rw [hd] at t2; revert t2; cases E.dir (g.layer + 2) <;> cases h <;> simp

/-- coordinate of the wire of a laid guide -/
def crossing (h : Bool) (n : TGuide) : Int := match n.routes with | [] => 0 | s :: _ => s.2.1.a h

theorem laid_wire {rb : Box} {row : Int → Int × Int} (hp : GuidePlan E C gs) (hr : TaRows (C (!h)) row) (hl : Laid E (!h) tr gs) (hin : InRows E (!h) row tr gs)
    {g : TGuide} (hg : g ∈ gs) (hd : E.dir g.layer = h) (hn : ¬ AtPin E g) :
    let w := wireInit E h rb gs g
    w.a1 < w.a2 ∧
    (∀ (j : Nat) (n : TGuide), gs[j]? = some n → TaNeighbour E g n g.b ∨ TaNeighbour E g n g.e → w.a1 ≤ tr j ∧ tr j ≤ w.a2) ∧
    ((∃ (j : Nat) (n : TGuide), gs[j]? = some n ∧ TaNeighbour E g n g.b ∧ w.a1 = tr j) ∨ ((∀ n ∈ gs, ¬ TaNeighbour E g n g.b) ∧ w.a1 = g.b.a h)) ∧
    ((∃ (j : Nat) (n : TGuide), gs[j]? = some n ∧ TaNeighbour E g n g.e ∧ w.a2 = max (tr j) (w.a1 + 1)) ∨
      ((∀ n ∈ gs, ¬ TaNeighbour E g n g.e) ∧ w.a2 = max (g.e.a h) (w.a1 + 1))) ∧
    (∀ y, y ∈ w.down ↔ ∃ (j : Nat) (n : TGuide), gs[j]? = some n ∧ (TaNeighbour E g n g.b ∨ TaNeighbour E g n g.e) ∧ n.layer = g.layer - 2 ∧ y = tr j) ∧
    (∀ y, y ∈ w.up ↔ ∃ (j : Nat) (n : TGuide), gs[j]? = some n ∧ (TaNeighbour E g n g.b ∨ TaNeighbour E g n g.e) ∧ n.layer = g.layer + 2 ∧ y = tr j) := by
  have hw : wireInit E h rb gs g = genericWire E h rb gs g := by unfold wireInit; rw [pinWire_none hn]; rfl
  obtain ⟨st, sa⟩ := hp.straight g hg
  rw [hd] at st sa
  have hcr : ∀ (j : Nat) (n : TGuide), gs[j]? = some n → E.dir n.layer = (!h) → ∃ p' q', n.routes = [(n.layer, p', q')] ∧ p'.a h = tr j ∧ crossing h n = tr j := by
    intro j n hj hdn
    obtain ⟨p', q', h1, h2, h3⟩ := hl j n hj hdn
    rw [point_c_not] at h2
    exact ⟨p', q', h1, h2, by unfold crossing; rw [h1]; exact h2⟩
  have hx : ∀ p n, p = g.b ∨ p = g.e → n ∈ nbrGuides E gs g p →
      (∃ p' q', n.routes = [(n.layer, p', q')] ∧ p'.a h = crossing h n) ∧ (row (p.a h)).1 ≤ crossing h n ∧ crossing h n ≤ (row (p.a h)).2 := by
    intro p n _ hnb
    rw [mem_nbr] at hnb
    obtain ⟨hm, hnb⟩ := hnb
    have hdn := laid_nbr hp hg hd hnb
    obtain ⟨j, hj⟩ := List.mem_iff_getElem?.1 hm
    obtain ⟨p', q', h1, h2, h3⟩ := hcr j n hj hdn
    have hs := (hp.straight n hm).1
    rw [hdn] at hs
    have hpc := passes_c hnb.2.1 hs
    have hrow := hin j n hj hdn
    rw [hpc, point_c_not] at hrow
    refine ⟨⟨p', q', h1, by rw [h2, h3]⟩, ?_⟩
    rw [h3]; exact hrow
  have hbe : g.b.a h = g.e.a h → g.b = g.e := by
    intro ha
    cases hb : g.b; cases he : g.e
    rw [hb, he] at ha st
    cases h <;> simp only [Point.a, Point.c, Bool.false_eq_true, if_false, if_true] at ha st <;> subst ha <;> subst st <;> rfl
  have hc := hp.centres g hg (!h)
  rw [point_c_not, point_c_not] at hc
  obtain ⟨g1, g2, g3, g4, g5, g6⟩ := genericWire_laid (rb := rb) hr hc.1 hc.2 sa hbe (crossing h) hx
  have hmem : ∀ (Q : TGuide → Prop) (p : Point), (∃ n, n ∈ nbrGuides E gs g p ∧ Q n) ↔ ∃ (j : Nat) (n : TGuide), gs[j]? = some n ∧ TaNeighbour E g n p ∧ Q n := by
    intro Q p
    constructor
    · rintro ⟨n, hnb, hq⟩
      rw [mem_nbr] at hnb
      obtain ⟨j, hj⟩ := List.mem_iff_getElem?.1 hnb.1
      exact ⟨j, n, hj, hnb.2, hq⟩
    · rintro ⟨j, n, hj, hnb, hq⟩
      exact ⟨n, mem_nbr.2 ⟨List.mem_of_getElem? hj, hnb⟩, hq⟩
  have hnil : ∀ p, nbrGuides E gs g p = [] → ∀ n ∈ gs, ¬ TaNeighbour E g n p := by
    intro p h0 n hm hnb
    have := mem_nbr.2 ⟨hm, hnb⟩
    rw [h0] at this; cases this
  have hval : ∀ {j : Nat} {n : TGuide} {p : Point}, gs[j]? = some n → TaNeighbour E g n p → crossing h n = tr j := by
    intro j n p hj hnb
    obtain ⟨_, _, _, _, h3⟩ := hcr j n hj (laid_nbr hp hg hd hnb)
    exact h3
  have happ : ∀ (Q : TGuide → Prop), (∃ n, n ∈ nbrGuides E gs g g.b ++ nbrGuides E gs g g.e ∧ Q n) ↔
      ∃ (j : Nat) (n : TGuide), gs[j]? = some n ∧ (TaNeighbour E g n g.b ∨ TaNeighbour E g n g.e) ∧ Q n := by
    intro Q
    constructor
    · rintro ⟨n, hnb, hq⟩
      rcases List.mem_append.1 hnb with hnb | hnb <;> rw [mem_nbr] at hnb <;> obtain ⟨j, hj⟩ := List.mem_iff_getElem?.1 hnb.1
      · exact ⟨j, n, hj, .inl hnb.2, hq⟩
      · exact ⟨j, n, hj, .inr hnb.2, hq⟩
    · rintro ⟨j, n, hj, hnb | hnb, hq⟩
      · exact ⟨n, List.mem_append_left _ (mem_nbr.2 ⟨List.mem_of_getElem? hj, hnb⟩), hq⟩
      · exact ⟨n, List.mem_append_right _ (mem_nbr.2 ⟨List.mem_of_getElem? hj, hnb⟩), hq⟩
  have hval2 : ∀ {j : Nat} {n : TGuide}, gs[j]? = some n → TaNeighbour E g n g.b ∨ TaNeighbour E g n g.e → crossing h n = tr j := by
    rintro j n hj (hnb | hnb)
    · exact hval hj hnb
    · exact hval hj hnb
  intro w
  rw [show w = genericWire E h rb gs g from hw]
  refine ⟨g1, ?_, ?_, ?_, ?_, ?_⟩
  · rintro j n hj (hnb | hnb)
    · rw [← hval hj hnb]; exact g2 g.b n (.inl rfl) (mem_nbr.2 ⟨List.mem_of_getElem? hj, hnb⟩)
    · rw [← hval hj hnb]; exact g2 g.e n (.inr rfl) (mem_nbr.2 ⟨List.mem_of_getElem? hj, hnb⟩)
  · rcases g3 with h1 | ⟨h1, h2⟩
    · obtain ⟨j, n, hj, hnb, hq⟩ := (hmem _ _).1 h1
      exact .inl ⟨j, n, hj, hnb, by rw [hq, hval hj hnb]⟩
    · exact .inr ⟨hnil _ h1, h2⟩
  · rcases g4 with h1 | ⟨h1, h2⟩
    · obtain ⟨j, n, hj, hnb, hq⟩ := (hmem _ _).1 h1
      exact .inl ⟨j, n, hj, hnb, by rw [hq, hval hj hnb]⟩
    · exact .inr ⟨hnil _ h1, h2⟩
  · intro y
    refine (g5 y).trans ((happ _).trans ?_)
    constructor
    · rintro ⟨j, n, hj, hnb, h1, h2⟩; exact ⟨j, n, hj, hnb, h1, by rw [h2, hval2 hj hnb]⟩
    · rintro ⟨j, n, hj, hnb, h1, h2⟩; exact ⟨j, n, hj, hnb, h1, by rw [h2, hval2 hj hnb]⟩
  · intro y
    refine (g6 y).trans ((happ _).trans ?_)
    constructor
    · rintro ⟨j, n, hj, hnb, h1, h2⟩
      refine ⟨j, n, hj, hnb, ?_, by rw [h2, hval2 hj hnb]⟩
      rcases hnb with ⟨_, _, hnb | hnb⟩ | ⟨_, _, hnb | hnb⟩
      · exact absurd hnb.1 h1
      · exact hnb.1
      · exact absurd hnb.1 h1
      · exact hnb.1
    · rintro ⟨j, n, hj, hnb, h1, h2⟩; exact ⟨j, n, hj, hnb, by omega, by rw [h2, hval2 hj hnb]⟩

/-- C127: where the guides of the other direction have their wires, on tracks in their rows of GCells, a pass gives each guide (that is not placed
by an access point) a wire that reaches the tracks of all guides of its net that meet its ends on the layers next to its own: it begins at the first
such track at its begin and ends at the last one at its end; an end that nothing meets is at the centre of its GCell. -/
theorem c127_reaches {row : Int → Int × Int} (hp : GuidePlan E C gs) (hr : TaRows (C (!h)) row) (hh : PanelsHold E h ps gs)
    (hB : ∀ p, p ∈ ps ↔ ∃ B ∈ Bs, p ∈ B) (hl : Laid E (!h) tr gs) (hin : InRows E (!h) row tr gs)
    {i : Nat} {g : TGuide} (hg : gs[i]? = some g) (hd : E.dir g.layer = h) (hn : ¬ AtPin E g) :
    ∃ p q, (runDir E h tr' Bs gs)[i]? = some { g with routes := [(g.layer, p, q)] } ∧ p.c h = tr' i ∧ q.c h = tr' i ∧ p.a h < q.a h ∧
    (∀ (j : Nat) (n : TGuide), gs[j]? = some n → TaNeighbour E g n g.b ∨ TaNeighbour E g n g.e → p.a h ≤ tr j ∧ tr j ≤ q.a h) ∧
    ((∃ (j : Nat) (n : TGuide), gs[j]? = some n ∧ TaNeighbour E g n g.b ∧ p.a h = tr j) ∨ ((∀ n ∈ gs, ¬ TaNeighbour E g n g.b) ∧ p.a h = g.b.a h)) ∧
    ((∃ (j : Nat) (n : TGuide), gs[j]? = some n ∧ TaNeighbour E g n g.e ∧ q.a h = max (tr j) (p.a h + 1)) ∨
      ((∀ n ∈ gs, ¬ TaNeighbour E g n g.e) ∧ q.a h = max (g.e.a h) (p.a h + 1))) := by
  have hi := runDir_inv (h := h) (tr := tr') hp.turns (ps := ps) (Bs := Bs) (fun B hb p hpb => (hB p).2 ⟨B, hb, hpb⟩)
  obtain ⟨g', k1, ⟨s1, s2, s3, s4⟩, _, _, k5⟩ := hi.each i g hg
  have hm := List.mem_of_getElem? hg
  obtain ⟨p, hpp, q1, q2⟩ := hh g hm hd
  obtain ⟨B, hb, hpb⟩ := (hB p).1 hpp
  obtain ⟨p', _, hrt⟩ := k5 ⟨B, hb, p, hpb, g, hg, hp.routing g hm, hd, q2, q1⟩
  obtain ⟨w1, w2, w3, w4, _⟩ := laid_wire (rb := p'.2.1) hp hr hl hin hm hd hn
  have hg' : g' = { g with routes := [(g.layer, ptAC h (wireInit E h p'.2.1 gs g).a1 (tr' i), ptAC h (wireInit E h p'.2.1 gs g).a2 (tr' i))] } := by
    cases g'; cases g
    dsimp only at s1 s2 s3 s4 hrt ⊢
    subst s1; subst s2; subst s3; subst s4; subst hrt; rfl
  refine ⟨_, _, by rw [k1, hg'], ptAC_c' _ _ _, ptAC_c' _ _ _, ?_⟩
  rw [ptAC_a', ptAC_a']
  exact ⟨w1, w2, w3, w4⟩

/-- C127: the vias of such a wire, in any panel, are at exactly the tracks of those guides: down to the ones below, up to the ones above. -/
theorem c127_vias {row : Int → Int × Int} (hp : GuidePlan E C gs) (hr : TaRows (C (!h)) row) (hl : Laid E (!h) tr gs) (hin : InRows E (!h) row tr gs)
    {g : TGuide} (hg : g ∈ gs) (hd : E.dir g.layer = h) (hn : ¬ AtPin E g) (rb : Box) (t : Int) (c : Int) (o : Point) :
    (∃ v, TaFig.via c v o ∈ wireFigs E h g.layer t (wireInit E h rb gs g)) ↔
      ∃ (j : Nat) (n : TGuide), gs[j]? = some n ∧ (TaNeighbour E g n g.b ∨ TaNeighbour E g n g.e) ∧ 2 * c = g.layer + n.layer ∧ o = ptAC h (tr j) t := by
  obtain ⟨_, _, _, _, w5, w6⟩ := laid_wire (rb := rb) hp hr hl hin hg hd hn
  unfold wireFigs
  simp only [List.mem_cons, List.mem_append, List.mem_map, reduceCtorEq, false_or, TaFig.via.injEq]
  constructor
  · rintro ⟨v, ⟨x, hx, h1, _, h3⟩ | ⟨x, hx, h1, _, h3⟩⟩
    · obtain ⟨j, n, k1, k2, k3, k4⟩ := (w6 x).1 hx
      exact ⟨j, n, k1, k2, by omega, by rw [← h3, k4]⟩
    · obtain ⟨j, n, k1, k2, k3, k4⟩ := (w5 x).1 hx
      exact ⟨j, n, k1, k2, by omega, by rw [← h3, k4]⟩
  · rintro ⟨j, n, k1, k2, k3, k4⟩
    have hlay : n.layer = g.layer - 2 ∨ n.layer = g.layer + 2 := by
      rcases k2 with ⟨_, _, k | k⟩ | ⟨_, _, k | k⟩
      · exact .inl k.1
      · exact .inr k.1
      · exact .inl k.1
      · exact .inr k.1
    rcases hlay with hlay | hlay
    · exact ⟨_, .inr ⟨tr j, (w5 _).2 ⟨j, n, k1, k2, hlay, rfl⟩, by omega, rfl, k4.symm⟩⟩
    · exact ⟨_, .inl ⟨tr j, (w6 _).2 ⟨j, n, k1, k2, hlay, rfl⟩, by omega, rfl, k4.symm⟩⟩

/-- C127: in the very first pass, when no guide has a wire, the wire goes from the centre of the GCell of its begin to that of its end and has vias
at those of its ends that guides on the next layers meet. -/
theorem c127_first (hp : GuidePlan E C gs) (hfr : ∀ g ∈ gs, g.routes = []) {g : TGuide} (hg : g ∈ gs) (hd : E.dir g.layer = h) (hn : ¬ AtPin E g) (rb : Box) :
    let w := wireInit E h rb gs g
    w.a1 = g.b.a h ∧ w.a2 = max (g.e.a h) (g.b.a h + 1) ∧
    (∀ y, y ∈ w.down ↔ ∃ n ∈ gs, ∃ p, (p = g.b ∨ p = g.e) ∧ TaNeighbour E g n p ∧ n.layer = g.layer - 2 ∧ y = p.a h) ∧
    (∀ y, y ∈ w.up ↔ ∃ n ∈ gs, ∃ p, (p = g.b ∨ p = g.e) ∧ TaNeighbour E g n p ∧ n.layer = g.layer + 2 ∧ y = p.a h) := by
  have hw : wireInit E h rb gs g = genericWire E h rb gs g := by unfold wireInit; rw [pinWire_none hn]; rfl
  obtain ⟨st, sa⟩ := hp.straight g hg
  rw [hd] at st sa
  have hf1 : ∀ p, ∀ n ∈ nbrGuides E gs g p, n.routes = [] := fun p n hnb => hfr n (mem_nbr.1 hnb).1
  have hba : ∀ {n : TGuide} {p : Point}, n ∈ gs → TaNeighbour E g n p → n.b.a h = p.a h := by
    intro n p hm hnb
    have hdn := laid_nbr hp hg hd hnb
    have hs := (hp.straight n hm).1
    rw [hdn] at hs
    have := passes_c hnb.2.1 hs
    rwa [point_c_not, point_c_not] at this
  intro w
  rw [show w = genericWire E h rb gs g from hw]
  unfold genericWire
  dsimp only
  obtain ⟨a1, a2, a3, a4⟩ := freshAcc (h := h) (l := g.layer) (last := false) (cp := g.b) (a := {}) (hf1 g.b)
  obtain ⟨b1, b2, b3, b4⟩ := freshAcc (h := h) (l := g.layer) (last := true) (cp := g.e)
    (a := (nbrGuides E gs g g.b).foldl (nbrStep h g.layer false g.b) {}) (hf1 g.e)
  have hspan : wireSpan (g.b.a h) (g.e.a h) = (g.b.a h, max (g.e.a h) (g.b.a h + 1)) := by
    unfold wireSpan
    dsimp only
    rw [if_neg (show ¬ g.b.a h > g.e.a h by omega)]
    dsimp only
    split
    · rw [show max (g.e.a h) (g.b.a h + 1) = g.e.a h + 1 by omega]
    · rw [show max (g.e.a h) (g.b.a h + 1) = g.e.a h by omega]
  rw [b1, b2, a1, a2]
  simp only [Option.getD_none, hspan]
  refine ⟨trivial, trivial, fun y => ?_, fun y => ?_⟩
  · rw [b3, a3]
    constructor
    · rintro ((h1 | ⟨n, h1, h2, h3⟩) | ⟨n, h1, h2, h3⟩)
      · cases h1
      · obtain ⟨m1, m2⟩ := mem_nbr.1 h1
        exact ⟨n, m1, g.b, .inl rfl, m2, h2, by rw [h3, hba m1 m2]⟩
      · obtain ⟨m1, m2⟩ := mem_nbr.1 h1
        exact ⟨n, m1, g.e, .inr rfl, m2, h2, by rw [h3, hba m1 m2]⟩
    · rintro ⟨n, m1, p, rfl | rfl, m2, h2, h3⟩
      · exact .inl (.inr ⟨n, mem_nbr.2 ⟨m1, m2⟩, h2, by rw [h3, hba m1 m2]⟩)
      · exact .inr ⟨n, mem_nbr.2 ⟨m1, m2⟩, h2, by rw [h3, hba m1 m2]⟩
  · rw [b4, a4]
    have hlay : ∀ {n : TGuide} {p : Point}, TaNeighbour E g n p → n.layer ≠ g.layer - 2 → n.layer = g.layer + 2 := by
      rintro n p ⟨_, _, h1 | h1⟩ hne
      · exact absurd h1.1 hne
      · exact h1.1
    constructor
    · rintro ((h1 | ⟨n, h1, h2, h3⟩) | ⟨n, h1, h2, h3⟩)
      · cases h1
      · obtain ⟨m1, m2⟩ := mem_nbr.1 h1
        exact ⟨n, m1, g.b, .inl rfl, m2, hlay m2 h2, by rw [h3, hba m1 m2]⟩
      · obtain ⟨m1, m2⟩ := mem_nbr.1 h1
        exact ⟨n, m1, g.e, .inr rfl, m2, hlay m2 h2, by rw [h3, hba m1 m2]⟩
    · rintro ⟨n, m1, p, rfl | rfl, m2, h2, h3⟩
      · exact .inl (.inr ⟨n, mem_nbr.2 ⟨m1, m2⟩, by omega, by rw [h3, hba m1 m2]⟩)
      · exact .inr ⟨n, mem_nbr.2 ⟨m1, m2⟩, by omega, by rw [h3, hba m1 m2]⟩

/-- C127: on a grid of GCells that fits the die the panels of either direction hold every guide between centres, and the GCells are rows as assumed
above. -/
theorem c127_grid {G : GGrid} (hf : G.Fits) (hw : G.Wide) (hp : GuidePlan E G.Centre gs) (h : Bool) {size : Int} (hs : 0 < size) :
    PanelsHold E h (taPanels G h size) gs ∧ TaRows (G.Centre h) (G.row h) :=
  ⟨grid_panels hf hp h hs, grid_rows hf hw h⟩

theorem plan_same {o : List TGuide} (hp : GuidePlan E C gs) (hs : SamePlaces gs o) : GuidePlan E C o := by
  have hb : ∀ g' ∈ o, ∃ g ∈ gs, g'.net = g.net ∧ g'.layer = g.layer ∧ g'.b = g.b ∧ g'.e = g.e := by
    intro g' hg'
    obtain ⟨i, hi⟩ := List.mem_iff_getElem?.1 hg'
    have hlt : i < gs.length := by rw [← hs.1]; exact (List.getElem?_eq_some_iff.1 hi).1
    exact ⟨gs[i], List.getElem_mem hlt, hs.2 i gs[i] g' (List.getElem?_eq_getElem hlt) hi⟩
  refine ⟨?_, ?_, ?_, ?_⟩ <;> intro g' hg' <;> obtain ⟨g, hg, s1, s2, s3, s4⟩ := hb g' hg' <;> (try rw [s2]) <;> (try rw [s3, s4])
  · exact hp.routing g hg
  · exact hp.turns g hg
  · exact hp.straight g hg
  · exact hp.centres g hg

theorem holds_same {o : List TGuide} (hh : PanelsHold E h ps gs) (hs : SamePlaces gs o) : PanelsHold E h ps o := by
  intro g' hg' hd
  obtain ⟨i, hi⟩ := List.mem_iff_getElem?.1 hg'
  have hlt : i < gs.length := by rw [← hs.1]; exact (List.getElem?_eq_some_iff.1 hi).1
  obtain ⟨_, s2, s3, s4⟩ := hs.2 i gs[i] g' (List.getElem?_eq_getElem hlt) hi
  have := hh gs[i] (List.getElem_mem hlt) (by rw [← s2]; exact hd)
  unfold TGuide.box at *
  rwa [s3, s4]

/-- C127: so after the two passes of the first round every guide has exactly one wire, on its layer and on its track. -/
theorem c127_both {ps' : List (Int × Box × Box)} {Bs' : List (List (Int × Box × Box))} (hp : GuidePlan E C gs) (hh : PanelsHold E h ps gs)
    (hh' : PanelsHold E (!h) ps' gs) (hB : ∀ p, p ∈ ps ↔ ∃ B ∈ Bs, p ∈ B) (hB' : ∀ p, p ∈ ps' ↔ ∃ B ∈ Bs', p ∈ B) :
    let o := runDir E (!h) tr' Bs' (runDir E h tr Bs gs)
    Laid E h tr o ∧ Laid E (!h) tr' o ∧ SamePlaces gs o := by
  obtain ⟨a1, a2, _⟩ := c127_one_wire (tr := tr) hp hh hB
  obtain ⟨b1, b2, b3⟩ := c127_one_wire (tr := tr') (plan_same hp a2) (holds_same hh' a2) hB'
  refine ⟨?_, b1, ?_⟩
  · intro i g hg hd
    have hlt : i < (runDir E h tr Bs gs).length := by rw [← b2.1]; exact (List.getElem?_eq_some_iff.1 hg).1
    have hi := List.getElem?_eq_getElem hlt
    obtain ⟨_, s2, _, _⟩ := b2.2 i _ g hi hg
    have := b3 i _ hi (by rw [← s2, hd]; cases h <;> simp)
    rw [hg] at this
    cases this
    exact a1 i _ hi hd
  · refine ⟨by rw [b2.1, a2.1], ?_⟩
    intro i g g' hg hg'
    have hlt : i < (runDir E h tr Bs gs).length := by rw [← b2.1]; exact (List.getElem?_eq_some_iff.1 hg').1
    have hi := List.getElem?_eq_getElem hlt
    obtain ⟨s1, s2, s3, s4⟩ := b2.2 i _ g' hi hg'
    obtain ⟨t1, t2, t3, t4⟩ := a2.2 i g _ hg hi
    exact ⟨by rw [s1, t1], by rw [s2, t2], by rw [s3, t3], by rw [s4, t4]⟩

/-! a net over two by two GCells: right on layer 2, up on layer 4 -/

def exTaGrid : GGrid := ⟨⟨⟨0, 0⟩, ⟨200, 200⟩⟩, ⟨0, 100, 2⟩, ⟨0, 100, 2⟩⟩
def exTaEnv (pins : List GrPin) : TaEnv := ⟨2, 7, fun l => decide (l % 4 = 2), fun l => decide (l % 2 = 0), pins, fun _ => ⟨.extend, 20, .extend, 20, 40⟩, fun _ => exVia⟩
def exTaGuides : List TGuide := [⟨0, 2, ⟨50, 50⟩, ⟨150, 50⟩, []⟩, ⟨0, 4, ⟨150, 50⟩, ⟨150, 150⟩, []⟩, ⟨1, 2, ⟨50, 150⟩, ⟨150, 150⟩, []⟩]
def exTaTr : Nat → Int := fun i => if i = 0 then 30 else if i = 1 then 170 else 130

theorem exTaGrid_fits : exTaGrid.Fits := by unfold GGrid.Fits AxisFits; decide
theorem exTaGrid_wide : exTaGrid.Wide := by
  intro h i h0 h1
  have h1 : i < 2 := by cases h <;> exact h1
  have : i = 0 ∨ i = 1 := by omega
  rcases this with rfl | rfl <;> cases h <;> decide
theorem exTaPlan (pins : List GrPin) : GuidePlan (exTaEnv pins) exTaGrid.Centre exTaGuides := by
  have c0 : ∀ h, exTaGrid.Centre h 50 := fun h => ⟨0, by omega, by cases h <;> decide, by cases h <;> decide⟩
  have c1 : ∀ h, exTaGrid.Centre h 150 := fun h => ⟨1, by omega, by cases h <;> decide, by cases h <;> decide⟩
  refine ⟨?_, ?_, ?_, ?_⟩ <;> intro g hg <;> simp only [exTaGuides, List.mem_cons, List.not_mem_nil, or_false] at hg <;> rcases hg with rfl | rfl | rfl
  · rfl
  · rfl
  · rfl
  · exact ⟨by simp only [exTaEnv]; decide, by simp only [exTaEnv]; decide⟩
  · exact ⟨by simp only [exTaEnv]; decide, by simp only [exTaEnv]; decide⟩
  · exact ⟨by simp only [exTaEnv]; decide, by simp only [exTaEnv]; decide⟩
  · exact ⟨by simp only [exTaEnv]; decide, by simp only [exTaEnv]; decide⟩
  · exact ⟨by simp only [exTaEnv]; decide, by simp only [exTaEnv]; decide⟩
  · exact ⟨by simp only [exTaEnv]; decide, by simp only [exTaEnv]; decide⟩
  · intro h; cases h
    · exact ⟨c0 _, c1 _⟩
    · exact ⟨c0 _, c0 _⟩
  · intro h; cases h
    · exact ⟨c1 _, c1 _⟩
    · exact ⟨c0 _, c1 _⟩
  · intro h; cases h
    · exact ⟨c0 _, c1 _⟩
    · exact ⟨c1 _, c1 _⟩
/-- the panels in one batch each -/
def exTaBatches (h : Bool) : List (List (Int × Box × Box)) := (taPanels exTaGrid h 1).map fun p => [p]
theorem exTaBatches_all (h : Bool) (p : Int × Box × Box) : p ∈ taPanels exTaGrid h 1 ↔ ∃ B ∈ exTaBatches h, p ∈ B := by
  unfold exTaBatches
  simp only [List.mem_map]
  constructor
  · intro hp; exact ⟨_, ⟨p, hp, rfl⟩, List.mem_singleton_self p⟩
  · rintro ⟨B, ⟨q, hq, rfl⟩, hb⟩; rw [List.mem_singleton] at hb; rw [hb]; exact hq
/-- the hypotheses of C127 hold, also those of the second pass -/
example : PanelsHold (exTaEnv []) true (taPanels exTaGrid true 1) exTaGuides ∧ PanelsHold (exTaEnv []) false (taPanels exTaGrid false 1) exTaGuides ∧
    TaRows (exTaGrid.Centre true) (exTaGrid.row true) :=
  ⟨(c127_grid exTaGrid_fits exTaGrid_wide (exTaPlan []) true (size := 1) (by decide)).1, (c127_grid exTaGrid_fits exTaGrid_wide (exTaPlan []) false (size := 1) (by decide)).1,
    (c127_grid exTaGrid_fits exTaGrid_wide (exTaPlan []) true (size := 1) (by decide)).2⟩
theorem exTaRun1 : runDir (exTaEnv []) true exTaTr (exTaBatches true) exTaGuides =
    [⟨0, 2, ⟨50, 50⟩, ⟨150, 50⟩, [(2, ⟨50, 30⟩, ⟨150, 30⟩)]⟩, ⟨0, 4, ⟨150, 50⟩, ⟨150, 150⟩, []⟩, ⟨1, 2, ⟨50, 150⟩, ⟨150, 150⟩, [(2, ⟨50, 130⟩, ⟨150, 130⟩)]⟩] := by
  decide +kernel
theorem exTaRun2 : runDir (exTaEnv []) false exTaTr (exTaBatches false) (runDir (exTaEnv []) true exTaTr (exTaBatches true) exTaGuides) =
    [⟨0, 2, ⟨50, 50⟩, ⟨150, 50⟩, [(2, ⟨50, 30⟩, ⟨150, 30⟩)]⟩, ⟨0, 4, ⟨150, 50⟩, ⟨150, 150⟩, [(4, ⟨170, 30⟩, ⟨170, 150⟩)]⟩,
      ⟨1, 2, ⟨50, 150⟩, ⟨150, 150⟩, [(2, ⟨50, 130⟩, ⟨150, 130⟩)]⟩] := by
  rw [exTaRun1]; decide +kernel
example : InRows (exTaEnv []) true (exTaGrid.row true) exTaTr (runDir (exTaEnv []) true exTaTr (exTaBatches true) exTaGuides) := by
  rw [exTaRun1]
  intro i g hg hd
  match i with
  | 0 => cases hg; exact ⟨by decide, by decide⟩
  | 1 => cases hg; exact absurd hd (by decide)
  | 2 => cases hg; exact ⟨by decide, by decide⟩
  | n + 3 => simp at hg
example (g : TGuide) : ¬ AtPin (exTaEnv []) g := by rintro ⟨_, t, ht, _⟩; cases ht

/-- C127, what does not hold: that the wires of a net meet after the two passes of the first round. The wire of the first pass ends at the centre of
the GCell, at 150, but the wire of the guide that meets its end lies on the track at 170. -/
theorem c127_first_round_gap : ∃ (E : TaEnv) (G : GGrid) (gs : List TGuide) (tr : Nat → Int) (g n : TGuide) (p q p' q' : Point),
    G.Fits ∧ G.Wide ∧ GuidePlan E G.Centre gs ∧ InRows E true (G.row true) tr gs ∧ InRows E false (G.row false) tr gs ∧
    gs[0]? = some g ∧ gs[1]? = some n ∧ TaNeighbour E g n g.e ∧
    (let o := runDir E false tr ((taPanels G false 1).map fun p => [p]) (runDir E true tr ((taPanels G true 1).map fun p => [p]) gs);
      o[0]? = some { g with routes := [(2, p, q)] } ∧ o[1]? = some { n with routes := [(4, p', q')] }) ∧ p.x < q.x ∧ p'.x = q'.x ∧ q.x < p'.x := by
  refine ⟨exTaEnv [], exTaGrid, exTaGuides, exTaTr, _, _, ⟨50, 30⟩, ⟨150, 30⟩, ⟨170, 30⟩, ⟨170, 150⟩, exTaGrid_fits, exTaGrid_wide, exTaPlan [], ?_, ?_, rfl, rfl, ?_, ?_, by decide, rfl, by decide⟩
  · intro i g hg hd
    match i with
    | 0 => cases hg; exact ⟨by decide, by decide⟩
    | 1 => cases hg; exact absurd hd (by decide)
    | 2 => cases hg; exact ⟨by decide, by decide⟩
    | n + 3 => simp [exTaGuides] at hg
  · intro i g hg hd
    match i with
    | 0 => cases hg; exact absurd hd (by decide)
    | 1 => cases hg; exact ⟨by decide, by decide⟩
    | 2 => cases hg; exact absurd hd (by decide)
    | n + 3 => simp [exTaGuides] at hg
  · exact ⟨rfl, by unfold TGuide.Passes; decide, .inr ⟨rfl, by decide⟩⟩
  · dsimp only
    have := exTaRun2
    unfold exTaBatches at this
    rw [this]
    exact ⟨rfl, rfl⟩

/-! ## C128: the pull towards access points -/

theorem mem_pinsEnd {g : TGuide} {t : GrPin} : t ∈ pinsAt E g.net g.b ++ (if g.e = g.b then [] else pinsAt E g.net g.e) ↔ PinAtEnd E g t := by
  unfold PinAtEnd pinsAt
  rw [List.mem_append, List.mem_filter, Bool.and_eq_true, decide_eq_true_eq, decide_eq_true_eq]
  constructor
  · rintro (⟨h1, h2, h3⟩ | h)
    · exact ⟨h1, h3, .inl h2⟩
    · split at h
      · cases h
      · rw [List.mem_filter, Bool.and_eq_true, decide_eq_true_eq, decide_eq_true_eq] at h
        exact ⟨h.1, h.2.2, .inr h.2.1⟩
  · rintro ⟨h1, h3, h2 | h2⟩
    · exact .inl ⟨h1, h2, h3⟩
    · by_cases he : g.e = g.b
      · exact .inl ⟨h1, by rw [h2, he], h3⟩
      · right
        rw [if_neg he, List.mem_filter, Bool.and_eq_true, decide_eq_true_eq, decide_eq_true_eq]
        exact ⟨h1, h2, h3⟩

theorem wlen2_eq {rb : Box} {g : TGuide} (hn : ¬ AtPin E g) : (wireInit E h rb gs g).wlen2 = pinCoord E h rb g := by
  unfold wireInit; rw [pinWire_none hn]; rfl

/-- C128, what holds: a wire is pulled across its tracks only if a terminal of its net lies at an end of its guide; it is then pulled to an access
point, inside the panel, of such a terminal, if every pin of every such terminal has its access point and one of them lies in the panel. Missing:
terminals without an access point in the panel (design pins), and pins without an access point: for both it is false. -/
theorem c128_pulled_partial {rb : Box} {g : TGuide} (hn : ¬ AtPin E g) :
    ((wireInit E h rb gs g).wlen2 = none ↔ ∀ t, ¬ PinAtEnd E g t) ∧
    ((∀ t, PinAtEnd E g t → AllAccess t) → (∃ t q l, PinAtEnd E g t ∧ AccessAt t q l ∧ rb.meets ⟨q, q⟩ = true) →
      ∃ t q l, PinAtEnd E g t ∧ AccessAt t q l ∧ rb.meets ⟨q, q⟩ = true ∧ (wireInit E h rb gs g).wlen2 = some (q.c h)) := by
  rw [wlen2_eq hn]
  unfold pinCoord
  dsimp only
  cases hf : (pinsAt E g.net g.b ++ (if g.e = g.b then [] else pinsAt E g.net g.e)).findSome? fun t => accLoop t (fun q _ => rb.meets ⟨q, q⟩) t.pins 0 with
  | some q =>
    dsimp only
    obtain ⟨t, ht, hq⟩ := List.exists_of_findSome?_eq_some hf
    have hpe := mem_pinsEnd.1 ht
    obtain ⟨hi, ap, h1, h2, h3⟩ := accLoop_some hq
    refine ⟨⟨fun hc => (by cases hc), fun hc => absurd hpe (hc t)⟩, fun _ _ => ⟨t, q, ap.2, hpe, ⟨hi, ap, h1, h2, rfl⟩, h3, rfl⟩⟩
  | none =>
    dsimp only
    constructor
    · constructor
      · intro hc t ht
        by_cases h0 : pinsAt E g.net g.b ++ (if g.e = g.b then [] else pinsAt E g.net g.e) = []
        · have := mem_pinsEnd.2 ht
          rw [h0] at this; cases this
        · rw [if_neg h0] at hc; cases hc
      · intro hc
        rw [if_pos]
        exact List.eq_nil_iff_forall_not_mem.2 fun t ht => hc t (mem_pinsEnd.1 ht)
    · rintro hall ⟨t, q, l, ht, ⟨hi, ap, h1, h2, _⟩, hm⟩
      exfalso
      rw [List.findSome?_eq_none_iff] at hf
      have hno := hf t (mem_pinsEnd.2 ht)
      obtain ⟨_, hx, hlen, hp, ha⟩ := hall t ht
      obtain ⟨j, hj⟩ := List.mem_iff_getElem?.1 h1
      have hjl : j < t.aps.length := (List.getElem?_eq_some_iff.1 hj).1
      have := (accLoop_all (fun q _ => rb.meets ⟨q, q⟩) hi hx t.pins 0 hp ?_).2 ⟨j, ap, by omega, by rw [Nat.zero_add]; exact hj, by rw [← h2]; exact hm⟩
      · rw [hno] at this; cases this
      · intro k hk
        rw [Nat.zero_add]
        have hk' : k < t.aps.length := by omega
        cases hv : t.aps[k] with
        | none => exact absurd hv (ha _ (List.getElem_mem hk'))
        | some v => exact ⟨v, by rw [List.getElem?_eq_getElem hk', hv]⟩

/-- C128, what does not hold: with terminals at the ends of the guide but none with an access point in the panel — such as a pin of the design — the
wire is pulled towards coordinate 0, wherever that is. -/
theorem c128_pulled_to_zero {rb : Box} {g : TGuide} (hn : ¬ AtPin E g) {t : GrPin} (ht : PinAtEnd E g t)
    (hno : ∀ t q l, PinAtEnd E g t → AccessAt t q l → rb.meets ⟨q, q⟩ = false) : (wireInit E h rb gs g).wlen2 = some 0 := by
  rw [wlen2_eq hn]
  unfold pinCoord
  dsimp only
  have hf : ((pinsAt E g.net g.b ++ (if g.e = g.b then [] else pinsAt E g.net g.e)).findSome? fun t => accLoop t (fun q _ => rb.meets ⟨q, q⟩) t.pins 0) = none := by
    rw [List.findSome?_eq_none_iff]
    intro t ht
    cases hq : accLoop t (fun q _ => rb.meets ⟨q, q⟩) t.pins 0 with
    | none => rfl
    | some q =>
      obtain ⟨hi, ap, h1, h2, h3⟩ := accLoop_some hq
      rw [hno t q ap.2 (mem_pinsEnd.1 ht) ⟨hi, ap, h1, h2, rfl⟩] at h3
      cases h3
  rw [hf]
  dsimp only
  rw [if_neg]
  intro h0
  have := mem_pinsEnd.2 ht
  rw [h0] at this; cases this

/-- a pin of the design at the begin of the first guide; a component with two pins there; the same with no access point for the first pin -/
def exIoPin : GrPin := ⟨⟨50, 50⟩, 0, false, ⟨0, 0⟩, -1, [true], []⟩
def exCellPin : GrPin := ⟨⟨50, 50⟩, 0, true, ⟨40, 40⟩, 0, [true, true], [some (⟨500, 500⟩, 0), some (⟨10, 20⟩, 0)]⟩
def exBarePin : GrPin := ⟨⟨50, 50⟩, 0, true, ⟨40, 40⟩, 0, [true, true], [none, some (⟨10, 20⟩, 0)]⟩
example : ¬ AtPin (exTaEnv [exCellPin]) ⟨0, 2, ⟨50, 50⟩, ⟨150, 50⟩, []⟩ := by rintro ⟨h, _⟩; exact absurd h (by decide)
example : AllAccess exCellPin ∧ PinAtEnd (exTaEnv [exCellPin]) ⟨0, 2, ⟨50, 50⟩, ⟨150, 50⟩, []⟩ exCellPin ∧ AccessAt exCellPin ⟨50, 60⟩ 0 :=
  ⟨⟨rfl, by decide, rfl, by decide, by decide⟩, ⟨by simp [exTaEnv], rfl, .inl rfl⟩, rfl, (⟨10, 20⟩, 0), by decide, rfl, rfl⟩
example : (wireInit (exTaEnv [exCellPin]) true ⟨⟨0, 0⟩, ⟨200, 100⟩⟩ [] ⟨0, 2, ⟨50, 50⟩, ⟨150, 50⟩, []⟩).wlen2 = some 60 := by decide +kernel
example : (wireInit (exTaEnv [exIoPin]) true ⟨⟨0, 0⟩, ⟨200, 100⟩⟩ [] ⟨0, 2, ⟨50, 50⟩, ⟨150, 50⟩, []⟩).wlen2 = some 0 := by decide +kernel

/-- C128, what does not hold: a pin without an access point hides the access points of the pins after it, here the one at (50, 60). -/
theorem c128_hidden : ∃ (E : TaEnv) (g : TGuide) (rb : Box) (t : GrPin), ¬ AtPin E g ∧ PinAtEnd E g t ∧ AccessAt t ⟨50, 60⟩ 0 ∧
    rb.meets ⟨⟨50, 60⟩, ⟨50, 60⟩⟩ = true ∧ ∀ gs, (wireInit E true rb gs g).wlen2 = some 0 := by
  refine ⟨exTaEnv [exBarePin], ⟨0, 2, ⟨50, 50⟩, ⟨150, 50⟩, []⟩, ⟨⟨0, 0⟩, ⟨200, 100⟩⟩, exBarePin, ?_, ⟨by simp [exTaEnv], rfl, .inl rfl⟩,
    ⟨rfl, (⟨10, 20⟩, 0), by decide, rfl, rfl⟩, by decide, fun gs => ?_⟩
  · rintro ⟨h, _⟩; exact absurd h (by decide)
  · rw [wlen2_eq]
    · decide +kernel
    · rintro ⟨h, _⟩; exact absurd h (by decide)

/-! ## C129: places blocked by fixed shapes -/

/-- C129: a point of a track of the panel is blocked for the wires of a net by the fixed shapes if and only if the square end of a wire of default
width there would be nearer than the distance to be kept, along x and along y, to a fixed shape found around the panel that belongs to another net
or to none. -/
theorem c129_fixed_places {P : PanelTech} {eb : Box} {objs : List FixObj} {l : Int} (hl : PanelLayer P l) (hs : StrictInc (P.locs l))
    (hf : ∀ o ∈ objs, FixFine P o) (n : Nat) (x t : Int) :
    (∃ r ∈ fixedRecs P eb objs, r.layer = l ∧ r.box.Has (ptAC P.horz x t) ∧ AgainstNet n r.owner) ↔
      t ∈ P.locs l ∧ ∃ o ∈ objs, o.layer = l ∧ eb.meets o.box = true ∧ FixAgainst n o ∧
        ∃ d, FixSpacing P o d ∧ Crowds o.box d (P.c.width l / 2) (ptAC P.horz x t) := by
  constructor
  · rintro ⟨r, hr, rfl, h1, h2⟩
    obtain ⟨o, ho, hpl, hm, hr⟩ := mem_fixedRecs.1 hr
    have hl' := (fixRecs_rec hr).1
    rw [hl'] at hs ⊢
    obtain ⟨k1, k2, k3⟩ := (fixRecs_has (hf o ho) hs n x t).1 ⟨r, hr, h1, h2⟩
    exact ⟨k2, o, ho, rfl, hm, k1, k3⟩
  · rintro ⟨ht, o, ho, rfl, hm, ha, hd⟩
    obtain ⟨r, hr, h1, h2⟩ := (fixRecs_has (hf o ho) hs n x t).2 ⟨ha, ht, hd⟩
    exact ⟨r, mem_fixedRecs.2 ⟨o, ho, hl, hm, hr⟩, (fixRecs_rec hr).1, h1, h2⟩

/-- C129: the records are proper lines and belong to nets or to nothing, as C125 assumes -/
theorem c129_records {P : PanelTech} {eb : Box} {objs : List FixObj} : ∀ r ∈ fixedRecs P eb objs, r.box.Proper ∧ ∀ p k, r.owner ≠ .fig p k := by
  intro r hr
  obtain ⟨o, _, _, _, hr⟩ := mem_fixedRecs.1 hr
  exact (fixRecs_rec hr).2

theorem crowds_of_closer {b : Box} {d hw : Int} {p : Point} (hb : b.Proper) (hw0 : 0 ≤ hw) (hd : 0 ≤ d) (h : Closer b (wireSq p hw) d) : Crowds b d hw p := by
  have := closer_gaps hb (by unfold Box.Proper wireSq; simp only [Box.left, Box.right, Box.bottom, Box.top]; omega) hd h
  unfold cgapX cgapY wireSq at this
  unfold Crowds
  simp only [Box.left, Box.right, Box.bottom, Box.top] at this ⊢
  omega

/-- C129: in particular every place of a track where the end of a wire would be closer than the distance is blocked -/
theorem c129_too_near {P : PanelTech} {eb : Box} {objs : List FixObj} {l : Int} (hl : PanelLayer P l) (hs : StrictInc (P.locs l))
    (hf : ∀ o ∈ objs, FixFine P o) (n : Nat) (x t : Int) (ht : t ∈ P.locs l) {o : FixObj} (ho : o ∈ objs) (hol : o.layer = l)
    (hm : eb.meets o.box = true) (ha : FixAgainst n o) {d : Int} (hd : FixSpacing P o d) (hc : Closer o.box (wireSq (ptAC P.horz x t) (P.c.width l / 2)) d) :
    ∃ r ∈ fixedRecs P eb objs, r.layer = l ∧ r.box.Has (ptAC P.horz x t) ∧ AgainstNet n r.owner := by
  obtain ⟨f1, f2, f3, f4⟩ := hf o ho
  rw [c129_fixed_places hl hs hf]
  refine ⟨ht, o, ho, hol, hm, ha, d, hd, crowds_of_closer ?_ ?_ (f4 d hd) hc⟩
  · unfold Box.Proper; omega
  · rw [← hol]; omega

/-- a power wire, a terminal and a blockage at one place -/
def exFixObjs : List FixObj := [⟨2, ⟨⟨500, 90⟩, ⟨600, 110⟩⟩, .wire, some 12⟩, ⟨2, ⟨⟨900, 90⟩, ⟨1000, 110⟩⟩, .term, some 13⟩, ⟨2, ⟨⟨1500, 190⟩, ⟨1600, 210⟩⟩, .obs, none⟩]
theorem exFixFine : ∀ o ∈ exFixObjs, FixFine exPanel o := by
  intro o ho
  simp only [exFixObjs, List.mem_cons, List.not_mem_nil, or_false] at ho
  rcases ho with rfl | rfl | rfl <;> refine ⟨by decide, by decide, by decide, ?_⟩ <;> intro d hd
  · have := (bloatOf_iff (by decide) _).2 ⟨d, hd, rfl⟩
    rw [show bloatOf exPanel ⟨2, ⟨⟨500, 90⟩, ⟨600, 110⟩⟩, .wire, some 12⟩ = some 70 by decide +kernel, Option.some.injEq, show exPanel.c.width _ / 2 = 20 by decide] at this
    omega
  · have := (bloatOf_iff (by decide) _).2 ⟨d, hd, rfl⟩
    rw [show bloatOf exPanel ⟨2, ⟨⟨900, 90⟩, ⟨1000, 110⟩⟩, .term, some 13⟩ = some 60 by decide +kernel, Option.some.injEq, show exPanel.c.width _ / 2 = 20 by decide] at this
    omega
  · have := (bloatOf_iff (by decide) _).2 ⟨d, hd, rfl⟩
    rw [show bloatOf exPanel ⟨2, ⟨⟨1500, 190⟩, ⟨1600, 210⟩⟩, .obs, none⟩ = some 70 by decide +kernel, Option.some.injEq, show exPanel.c.width _ / 2 = 20 by decide] at this
    omega
example : PanelLayer exPanel 2 ∧ StrictInc (exPanel.locs 2) := ⟨by unfold PanelLayer; decide, exPanel_inc 2⟩
example : fixedRecs exPanel ⟨⟨0, 0⟩, ⟨2000, 400⟩⟩ exFixObjs = [⟨2, ⟨⟨431, 100⟩, ⟨669, 100⟩⟩, .net 12, .short 2⟩,
    ⟨2, ⟨⟨841, 100⟩, ⟨1059, 100⟩⟩, .net 13, .short 2⟩, ⟨2, ⟨⟨1431, 200⟩, ⟨1669, 200⟩⟩, .unknown, .short 2⟩] := by decide +kernel

/-! ## C130: a wire without cost keeps its distance from the fixed shapes -/

/-- C130: after a later pass of track assignment with the fixed shapes found around the panel, a segment of a wire of cost 0 is nowhere on the
tracks of its layer nearer to a fixed shape of another net, or of none, than the distance to be kept. -/
theorem c130_keeps_distance {P : PanelTech} {net : Nat → Nat} {G : Nat → WireGuide} {figs : Nat → List TaFig} {eb : Box} {objs : List FixObj}
    {wires ext : List Nat} (hp : TaPanel P G figs (fixedRecs P eb objs) wires ext) {maxRetry : Nat} (hm : 1 ≤ maxRetry) {pick : Nat → Nat} {fuel : Nat}
    {s : PassSt} (hs : laterPass P net figs (fixedRecs P eb objs) wires ext maxRetry G pick fuel = some s) (hf : ∀ o ∈ objs, FixFine P o)
    {q : Nat} (hq : q ∈ wires) (hc : s.st.cost q = 0) {l : Int} {b e : Point} {st : SegStyle} (hfig : TaFig.seg l b e st ∈ s.st.figs q) (hl : PanelLayer P l)
    {x t : Int} (ht : t ∈ P.locs l) (hon : (Box.mk4 b.x b.y e.x e.y).Has (ptAC P.horz x t))
    {o : FixObj} (ho : o ∈ objs) (hol : o.layer = l) (hmeet : eb.meets o.box = true) (ha : FixAgainst (net q) o) {d : Int} (hd : FixSpacing P o d) :
    ¬ Crowds o.box d (P.c.width l / 2) (ptAC P.horz x t) ∧ ¬ Closer o.box (wireSq (ptAC P.horz x t) (P.c.width l / 2)) d := by
  have hno := (c125_cost_zero hp hm hs q hq).2.1 hc
  have hcr : ¬ Crowds o.box d (P.c.width l / 2) (ptAC P.horz x t) := by
    intro hcr
    have := (c129_fixed_places (eb := eb) hl (hp.locs l) hf (net q) x t).2 ⟨ht, o, ho, hol, hmeet, ha, d, hd, hcr⟩
    obtain ⟨r, hr, h1, h2, h3⟩ := this
    exact hno ⟨_, hfig, _, hon, .inl ⟨r, hr, h1, h2, h3⟩⟩
  refine ⟨hcr, fun hcl => hcr ?_⟩
  obtain ⟨f1, f2, f3, f4⟩ := hf o ho
  exact crowds_of_closer (by unfold Box.Proper; omega) (by rw [← hol]; omega) (f4 d hd) hcl

/-- the panel of C125 with the fixed shapes of C129: the wires are moved away from the power wire and then have no cost -/
theorem exFixPanel : TaPanel exPanel exGuide exTaFigs (fixedRecs exPanel ⟨⟨0, 0⟩, ⟨2000, 400⟩⟩ exFixObjs) [0, 1] [2] :=
  ⟨exTaPanel.nodup, exTaPanel.locs, fun r hr => (c129_records r hr).1, fun r hr => (c129_records r hr).2, exTaPanel.inLine, exTaPanel.pitch, exTaPanel.away, exTaPanel.tracks⟩
example : (laterPass exPanel exNet exTaFigs (fixedRecs exPanel ⟨⟨0, 0⟩, ⟨2000, 400⟩⟩ exFixObjs) [0, 1] [2] 2 exGuide (fun _ => 0) 14).map
    (fun s => (s.st.cost 0, s.st.cost 1, s.todo)) = some (0, 0, []) := by decide +kernel

end TR
