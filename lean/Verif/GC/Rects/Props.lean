import Verif.GC.Rects.Lemmas
import Verif.GC.Rects.Flags
/-! # Property C114: maximal rectangles -/
namespace TR

/-- **C114.** The rectangles the checker works on are exactly the maximal rectangles of the metal, each once, and every rectangle of metal
lies in one of them. -/
theorem c114_max_rects (bs : List Box) :
    (∀ r, r ∈ maxRects bs ↔ IsMaxRect bs r) ∧ (maxRects bs).Nodup ∧ (∀ r, Solid r → AllMetal bs r → ∃ s ∈ maxRects bs, LiesIn r s) :=
  ⟨fun _ => mem_maxRects, nodup_distinct _, fun _ => in_some_max⟩

/-- Two pieces of metal overlap exactly if two of their maximal rectangles do. -/
theorem c114_overlap (as bs : List Box) :
    (∃ c, MetalCell as c ∧ MetalCell bs c) ↔ ∃ r ∈ maxRects as, ∃ s ∈ maxRects bs, ∃ c, CellOf r c ∧ CellOf s c := by
  constructor
  · rintro ⟨c, ha, hb⟩
    obtain ⟨r, hr, h1⟩ := cell_in_max ha
    obtain ⟨s, hs, h2⟩ := cell_in_max hb
    exact ⟨r, hr, s, hs, c, h1, h2⟩
  · rintro ⟨r, hr, s, hs, c, h1, h2⟩
    exact ⟨c, (mem_maxRects.1 hr).metal c h1, (mem_maxRects.1 hs).metal c h2⟩

/-- Rectangles of two pieces of metal that come closer than some distance lie in maximal rectangles that do, and these run alongside at least
as far and are at least as wide: no spacing table asks less of them. -/
theorem c114_closest (as bs : List Box) (d : Int) (r s : Box) (hr : Solid r) (hs : Solid s) (ha : AllMetal as r) (hb : AllMetal bs s)
    (hc : Closer r s d) : ∃ R ∈ maxRects as, ∃ S ∈ maxRects bs, LiesIn r R ∧ LiesIn s S ∧ Closer R S d ∧ runLen r s ≤ runLen R S ∧
      min (r.right - r.left) (r.top - r.bottom) ≤ min (R.right - R.left) (R.top - R.bottom) ∧
      min (s.right - s.left) (s.top - s.bottom) ≤ min (S.right - S.left) (S.top - S.bottom) := by
  obtain ⟨R, hR, h1⟩ := in_some_max hr ha
  obtain ⟨S, hS, h2⟩ := in_some_max hs hb
  refine ⟨R, hR, S, hS, h1, h2, ?_, ?_, ?_, ?_⟩
  · obtain ⟨p, q, hp, hq, hd⟩ := hc
    obtain ⟨a1, a2, a3, a4⟩ := h1
    obtain ⟨b1, b2, b3, b4⟩ := h2
    refine ⟨p, q, ?_, ?_, hd⟩
    · obtain ⟨x1, x2, x3, x4⟩ := hp; exact ⟨by omega, by omega, by omega, by omega⟩
    · obtain ⟨x1, x2, x3, x4⟩ := hq; exact ⟨by omega, by omega, by omega, by omega⟩
  · obtain ⟨a1, a2, a3, a4⟩ := h1
    obtain ⟨b1, b2, b3, b4⟩ := h2
    unfold runLen sharedX sharedY; omega
  · obtain ⟨a1, a2, a3, a4⟩ := h1; omega
  · obtain ⟨b1, b2, b3, b4⟩ := h2; omega

theorem metalAt_append {as bs : List Box} {c : Point} : MetalCell (as ++ bs) c ↔ MetalCell as c ∨ MetalCell bs c := by
  simp only [MetalCell, List.mem_append]
  constructor
  · rintro ⟨b, hb | hb, h⟩
    · exact .inl ⟨b, hb, h⟩
    · exact .inr ⟨b, hb, h⟩
  · rintro (⟨b, hb, h⟩ | ⟨b, hb, h⟩)
    · exact ⟨b, .inl hb, h⟩
    · exact ⟨b, .inr hb, h⟩

/-- A maximal rectangle of a net is marked fixed exactly if all of it is fixed metal. -/
theorem c114_fixed (routed fixed : List Box) (r : Box) (f : Bool) : (r, f) ∈ flaggedRects routed fixed ↔
    IsMaxRect (routed ++ fixed) r ∧ (f = true ↔ AllMetal fixed r) := by
  unfold flaggedRects
  simp only [List.mem_map, Prod.mk.injEq]
  have key : IsMaxRect (routed ++ fixed) r → (r ∈ maxRects fixed ↔ AllMetal fixed r) := by
    intro h
    rw [mem_maxRects]
    refine ⟨fun h => h.metal, fun hm => ⟨h.solid, hm, fun s hs hsm hin => h.max s hs (fun c hc => metalAt_append.2 (.inr (hsm c hc))) hin⟩⟩
  constructor
  · rintro ⟨s, hs, rfl, rfl⟩
    exact ⟨mem_maxRects.1 hs, by rw [decide_eq_true_eq]; exact key (mem_maxRects.1 hs)⟩
  · rintro ⟨h, hf⟩
    refine ⟨r, mem_maxRects.2 h, rfl, ?_⟩
    have := key h
    cases f with
    | true => rw [decide_eq_true_eq]; exact this.2 (hf.1 rfl)
    | false => rw [decide_eq_false_iff_not]; exact fun hm => by have := hf.2 (this.1 hm); cases this

/-- There is a single maximal rectangle exactly if the metal is a rectangle. -/
theorem c114_rectangle (bs : List Box) : (maxRects bs).length = 1 ↔ IsRectangle bs := by
  constructor
  · intro h
    match hm : maxRects bs, h with
    | [r], _ =>
      have hr : IsMaxRect bs r := mem_maxRects.1 (by rw [hm]; exact List.mem_singleton.2 rfl)
      refine ⟨r, hr.solid, fun c => ⟨fun hc => ?_, fun hc => hr.metal c hc⟩⟩
      obtain ⟨s, hs, h1⟩ := cell_in_max hc
      rw [hm, List.mem_singleton] at hs
      rw [← hs]; exact h1
  · rintro ⟨r, hr, hc⟩
    have hall : ∀ s, IsMaxRect bs s → s = r := by
      intro s hs
      have hin : LiesIn s r := cells_liesIn hs.solid (fun c h => (hc c).1 (hs.metal c h))
      exact (hs.max r hr (fun c h => (hc c).2 h) hin).symm
    have hmem : r ∈ maxRects bs := by
      obtain ⟨s, hs, _⟩ := in_some_max hr (fun c h => (hc c).2 h)
      rw [← hall s (mem_maxRects.1 hs)]; exact hs
    have hnd := nodup_distinct (((bs.map Box.left).flatMap (fun l => (bs.map Box.right).flatMap (fun r =>
      (bs.map Box.bottom).flatMap (fun b => (bs.map Box.top).map (fun t => (⟨⟨l, b⟩, ⟨r, t⟩⟩ : Box)))))).filter (fun r =>
      decide (r.left < r.right) && decide (r.bottom < r.top) && insideAll bs r &&
      !insideAll bs (growL r) && !insideAll bs (growR r) && !insideAll bs (growB r) && !insideAll bs (growT r)))
    have hall' : ∀ s ∈ maxRects bs, s = r := fun s hs => hall s (mem_maxRects.1 hs)
    change (maxRects bs).Nodup at hnd
    match hl : maxRects bs with
    | [] => rw [hl] at hmem; cases hmem
    | [_] => rfl
    | a :: b :: t =>
      exfalso
      rw [hl] at hnd hall'
      have h1 := hall' a List.mem_cons_self
      have h2 := hall' b (List.mem_cons_of_mem _ List.mem_cons_self)
      rw [h1, h2] at hnd
      simp at hnd

/-- the metal of an L: a horizontal bar and a vertical bar above its left end -/
def ellMetal : List Box := [⟨⟨0, 0⟩, ⟨6, 2⟩⟩, ⟨⟨0, 2⟩, ⟨2, 5⟩⟩]

/-- Non-vacuity: an L has two maximal rectangles, the longer of which joins the parts; the one that is wholly fixed is marked so. -/
example : maxRects ellMetal = [⟨⟨0, 0⟩, ⟨6, 2⟩⟩, ⟨⟨0, 0⟩, ⟨2, 5⟩⟩] ∧
    flaggedRects [⟨⟨0, 2⟩, ⟨2, 5⟩⟩] [⟨⟨0, 0⟩, ⟨6, 2⟩⟩] = [(⟨⟨0, 0⟩, ⟨2, 5⟩⟩, false), (⟨⟨0, 0⟩, ⟨6, 2⟩⟩, true)] ∧
    maxRects [⟨⟨0, 0⟩, ⟨2, 2⟩⟩, ⟨⟨1, 0⟩, ⟨5, 2⟩⟩] = [⟨⟨0, 0⟩, ⟨5, 2⟩⟩] := by decide +kernel

/-- The fixed flags of corners do not tell fixed from routed metal: on a metal layer the shapes are kept as polygons and the single rectangles
that the flags are computed from are those of cuts only, so that a convex corner is never marked fixed and a concave one always. -/
theorem c114_corner_flags (d : DbNet) (layer : Nat) (hf : ∀ x ∈ d.fixedCut, x.1 ≠ layer) (hr : ∀ x ∈ d.routeCut, x.1 ≠ layer) (c : GCorner) :
    (c.kind = .convex → cornFixed d layer c = false) ∧ (c.kind = .concave → cornFixed d layer c = true) := by
  have h1 : d.fixedCut.filter (fun x => decide (x.1 = layer)) = [] := List.filter_eq_nil_iff.2 (fun x hx => by simpa using hf x hx)
  have h2 : d.routeCut.filter (fun x => decide (x.1 = layer)) = [] := List.filter_eq_nil_iff.2 (fun x hx => by simpa using hr x hx)
  constructor
  · intro h; simp [cornFixed, h, h1]
  · intro h; simp [cornFixed, h, h2]

/-- Non-vacuity: a net with a fixed pin on layer 4 and a cut on layer 5; the corner of the fixed pin is not marked fixed. -/
example : cornFixed ⟨[(4, ⟨⟨0, 0⟩, ⟨6, 2⟩⟩)], [(5, ⟨⟨0, 0⟩, ⟨2, 2⟩⟩)], [], []⟩ 4 ⟨0, ⟨6, 2⟩, .convex, .ne, 2, 6, .convex, .convex⟩ = false := by decide

end TR
