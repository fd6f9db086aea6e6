import Verif.GcEdge.Props
/-! # Properties of the corners of metal -/
namespace TR

/-- the corner between edge `prev` and edge `i`, without its links -/
def geCornAt (s : GeShapes) (es : List GeEdge) (prev i : Nat) (pc nc : Option Nat) : GeCorner :=
  let p := es.getD prev default
  let q := es.getD i default
  let k := cornKind (geDir p.lo p.hi) (geDir q.lo q.hi)
  let d := cornDir (geDir p.lo p.hi) (geDir q.lo q.hi)
  ⟨p.hi, prev, i, k, d, geCornerFixed s k d (match k with | .convex => p.hi | _ => q.lo), pc, nc⟩

def geBefore (n i : Nat) : Nat := if i = 0 then n - 1 else i - 1

def geCornOpen (s : GeShapes) (es : List GeEdge) (m : Nat) : List GeCorner :=
  (List.range m).map (fun i => geCornAt s es (geBefore es.length i) i (if i = 0 then none else some (i - 1)) (if i + 1 = m then none else some (i + 1)))

def geEndsOpen (n m : Nat) : List (Option Nat × Option Nat) :=
  (List.range n).map (fun k => (if k < m then some k else none, if k + 1 < m then some (k + 1) else if k + 1 = n ∧ 0 < m then some 0 else none))

theorem geCornLoop_open (s : GeShapes) (es : List GeEdge) (h2 : 2 ≤ es.length) : ∀ (fuel m : Nat), m + fuel = es.length →
    geCornLoop s es fuel (geBefore es.length m) m (geCornOpen s es m) (geEndsOpen es.length m) = (geCornOpen s es es.length, geEndsOpen es.length es.length)
  | 0, m, h => by
    have : m = es.length := by omega
    rw [geCornLoop, this]
  | fuel + 1, m, h => by
    have hnil : geCornOpen s es m = [] ↔ m = 0 := by simp [geCornOpen]
    have hlen : (geCornOpen s es m).length = m := by simp [geCornOpen]
    have hcs : (if geCornOpen s es m = [] then geCornOpen s es m else
          (geCornOpen s es m).modify ((geCornOpen s es m).length - 1) (fun c => { c with nextCorner := some (geCornOpen s es m).length })) ++
        [geCornAt s es (geBefore es.length m) m (if geCornOpen s es m = [] then none else some ((geCornOpen s es m).length - 1)) none] = geCornOpen s es (m + 1) := by
      by_cases h0 : m = 0
      · subst h0
        simp [geCornOpen, List.range_succ]
      · have hne : ¬ geCornOpen s es m = [] := fun e => h0 (hnil.1 e)
        rw [if_neg hne, if_neg hne, hlen]
        rw [geCornOpen, modify_map_range (g := fun i => geCornAt s es (geBefore es.length i) i (if i = 0 then none else some (i - 1)) (some (i + 1)))]
        · rw [geCornOpen]
          apply snoc_map_range
          · intro k hk
            have : ¬ k = m := by omega
            simp [this]
          · simp [h0]
        · intro k hk
          by_cases e : k = m - 1
          · have : k + 1 = m := by omega
            simp [e, geCornAt]
            omega
          · have : ¬ k + 1 = m := by omega
            simp [e, this]
    have hls : ((geEndsOpen es.length m).modify (geBefore es.length m) (fun l => (l.1, some m))).modify m (fun l => (some m, l.2)) = geEndsOpen es.length (m + 1) := by
      rw [geEndsOpen, modify_map_range (g := fun k => (if k < m then some k else none,
        if k + 1 < m + 1 then some (k + 1) else if k + 1 = es.length then some 0 else none))]
      · rw [modify_map_range (g := fun k => (if k < m + 1 then some k else none,
          if k + 1 < m + 1 then some (k + 1) else if k + 1 = es.length ∧ 0 < m + 1 then some 0 else none))]
        · rfl
        · intro k hk
          by_cases e : k = m
          · simp [e]
          · have h1 : k < m + 1 ↔ k < m := by omega
            simp [e, h1]
      · intro k hk
        by_cases h0 : m = 0
        · subst h0
          simp only [geBefore]
          by_cases e : k = es.length - 1
          · have : k + 1 = es.length := by omega
            simp [e]
            omega
          · have : ¬ k + 1 = es.length := by omega
            simp [e, this]
        · simp only [geBefore, if_neg h0]
          by_cases e : k = m - 1
          · have h1 : k + 1 = m := by omega
            rw [if_pos e]
            simp [h1]
          · rw [if_neg e]
            have h1 : k + 1 < m + 1 ↔ k + 1 < m := by omega
            have h3 : 0 < m := by omega
            simp [h1, h3]
    have := geCornLoop_open s es h2 fuel (m + 1) (by omega)
    rw [geCornLoop]
    have hb : geBefore es.length (m + 1) = m := by simp [geBefore]
    rw [hb, ← hcs, ← hls] at this
    exact this

theorem geCorners_closed (s : GeShapes) (es : List GeEdge) (h2 : 2 ≤ es.length) :
    geCorners s es = ((List.range es.length).map (fun i => geCornAt s es ((i + es.length - 1) % es.length) i
        (some ((i + es.length - 1) % es.length)) (some ((i + 1) % es.length))),
      (List.range es.length).map (fun k => (some k, some ((k + 1) % es.length)))) := by
  have h := geCornLoop_open s es h2 es.length 0 (by omega)
  have h0 : geCornOpen s es 0 = [] := by simp [geCornOpen]
  have h1 : geEndsOpen es.length 0 = es.map (fun _ => (none, none)) := by
    rw [geEndsOpen]
    apply List.ext_getElem?
    intro k
    by_cases hk : k < es.length
    · rw [List.getElem?_map, List.getElem?_range hk, List.getElem?_map, List.getElem?_eq_getElem hk]
      simp
    · rw [List.getElem?_eq_none (by simp; omega), List.getElem?_eq_none (by simp; omega)]
  rw [h0, h1] at h
  have hb : geBefore es.length 0 = es.length - 1 := by simp [geBefore]
  rw [hb] at h
  rw [geCorners, h]
  have hlen : (geCornOpen s es es.length).length = es.length := by simp [geCornOpen]
  simp only [hlen]
  congr 1
  · rw [geCornOpen]
    rw [modify_map_range (g := fun i => geCornAt s es (geBefore es.length i) i (if i = 0 then none else some (i - 1)) (some ((i + 1) % es.length)))]
    · rw [modify_map_range]
      intro k hk
      have e2 : (k + es.length - 1) % es.length = if k = 0 then es.length - 1 else k - 1 := by
        split
        · subst k
          rw [show 0 + es.length - 1 = es.length - 1 by omega]
          exact Nat.mod_eq_of_lt (by omega)
        · rw [show k + es.length - 1 = (k - 1) + es.length by omega, Nat.add_mod_right]
          exact Nat.mod_eq_of_lt (by omega)
      rw [e2]
      by_cases e : k = 0
      · simp [e, geBefore, geCornAt]
      · simp [e, geBefore]
    · intro k hk
      by_cases e : k = es.length - 1
      · have h3 : k + 1 = es.length := by omega
        rw [if_pos e, if_pos h3, h3, Nat.mod_self]
        rfl
      · have h3 : ¬ k + 1 = es.length := by omega
        rw [if_neg e, if_neg h3, Nat.mod_eq_of_lt (by omega)]
  · rw [geEndsOpen]
    apply List.map_congr_left
    intro k hk
    have hk := List.mem_range.1 hk
    simp only [hk, if_true]
    by_cases e : k + 1 = es.length
    · rw [if_neg (by omega), if_pos ⟨e, by omega⟩, e, Nat.mod_self]
    · have h3 : k + 1 < es.length := by omega
      rw [if_pos h3, Nat.mod_eq_of_lt h3]

theorem turn_kind {n : Nat} {p q r : Point} (h : (p.x = q.x ∧ p.y ≠ q.y ∧ q.y = r.y ∧ q.x ≠ r.x) ∨ (p.y = q.y ∧ p.x ≠ q.x ∧ q.x = r.x ∧ q.y ≠ r.y)) :
    (cornKind (geDir p q) (geDir q r) = .convex ↔ LeftTurn ⟨n, geDir p q, p, q⟩ ⟨n, geDir q r, q, r⟩) ∧
    (cornKind (geDir p q) (geDir q r) = .concave ↔ RightTurn ⟨n, geDir p q, p, q⟩ ⟨n, geDir q r, q, r⟩) ∧ cornDir (geDir p q) (geDir q r) ≠ .unknown := by
  have pos : ∀ a b : Int, 0 < a → 0 < b → 0 < a * b := fun a b => Int.mul_pos
  simp only [LeftTurn, RightTurn, crossEdge]
  rcases h with ⟨h1, h2, h3, h4⟩ | ⟨h1, h2, h3, h4⟩
  · have e1 : q.x - p.x = 0 := by omega
    have e2 : r.y - q.y = 0 := by omega
    simp only [e1, e2, Int.zero_mul, Int.zero_sub]
    by_cases a : p.y < q.y <;> by_cases b : q.x < r.x
    · have := pos (q.y - p.y) (r.x - q.x) (by omega) (by omega)
      have g1 : geDir p q = .N := by simp [geDir, h1, a]
      have g2 : geDir q r = .E := by simp [geDir, h4, b]
      rw [g1, g2]
      generalize (q.y - p.y) * (r.x - q.x) = z at *
      simp [cornKind, turnSign, cornDir]; omega
    · have := pos (q.y - p.y) (q.x - r.x) (by omega) (by omega)
      have : (q.y - p.y) * (q.x - r.x) = - ((q.y - p.y) * (r.x - q.x)) := by rw [← Int.mul_neg]; congr 1; omega
      have g1 : geDir p q = .N := by simp [geDir, h1, a]
      have g2 : geDir q r = .W := by simp [geDir, h4, b]
      rw [g1, g2]
      generalize (q.y - p.y) * (r.x - q.x) = z at *
      simp [cornKind, turnSign, cornDir]; omega
    · have := pos (p.y - q.y) (r.x - q.x) (by omega) (by omega)
      have : (p.y - q.y) * (r.x - q.x) = - ((q.y - p.y) * (r.x - q.x)) := by rw [← Int.neg_mul]; congr 1; omega
      have g1 : geDir p q = .S := by simp [geDir, h1, a]
      have g2 : geDir q r = .E := by simp [geDir, h4, b]
      rw [g1, g2]
      generalize (q.y - p.y) * (r.x - q.x) = z at *
      simp [cornKind, turnSign, cornDir]; omega
    · have := pos (p.y - q.y) (q.x - r.x) (by omega) (by omega)
      have : (p.y - q.y) * (q.x - r.x) = (q.y - p.y) * (r.x - q.x) := by rw [← Int.neg_mul_neg]; congr 1 <;> omega
      have g1 : geDir p q = .S := by simp [geDir, h1, a]
      have g2 : geDir q r = .W := by simp [geDir, h4, b]
      rw [g1, g2]
      generalize (q.y - p.y) * (r.x - q.x) = z at *
      simp [cornKind, turnSign, cornDir]; omega
  · have e1 : q.y - p.y = 0 := by omega
    have e2 : r.x - q.x = 0 := by omega
    simp only [e1, e2, Int.zero_mul, Int.sub_zero]
    by_cases a : p.x < q.x <;> by_cases b : q.y < r.y
    · have := pos (q.x - p.x) (r.y - q.y) (by omega) (by omega)
      have g1 : geDir p q = .E := by simp [geDir, h2, a]
      have g2 : geDir q r = .N := by simp [geDir, h3, b]
      rw [g1, g2]
      generalize (q.x - p.x) * (r.y - q.y) = z at *
      simp [cornKind, turnSign, cornDir]; omega
    · have := pos (q.x - p.x) (q.y - r.y) (by omega) (by omega)
      have : (q.x - p.x) * (q.y - r.y) = - ((q.x - p.x) * (r.y - q.y)) := by rw [← Int.mul_neg]; congr 1; omega
      have g1 : geDir p q = .E := by simp [geDir, h2, a]
      have g2 : geDir q r = .S := by simp [geDir, h3, b]
      rw [g1, g2]
      generalize (q.x - p.x) * (r.y - q.y) = z at *
      simp [cornKind, turnSign, cornDir]; omega
    · have := pos (p.x - q.x) (r.y - q.y) (by omega) (by omega)
      have : (p.x - q.x) * (r.y - q.y) = - ((q.x - p.x) * (r.y - q.y)) := by rw [← Int.neg_mul]; congr 1; omega
      have g1 : geDir p q = .W := by simp [geDir, h2, a]
      have g2 : geDir q r = .N := by simp [geDir, h3, b]
      rw [g1, g2]
      generalize (q.x - p.x) * (r.y - q.y) = z at *
      simp [cornKind, turnSign, cornDir]; omega
    · have := pos (p.x - q.x) (q.y - r.y) (by omega) (by omega)
      have : (p.x - q.x) * (q.y - r.y) = (q.x - p.x) * (r.y - q.y) := by rw [← Int.neg_mul_neg]; congr 1 <;> omega
      have g1 : geDir p q = .W := by simp [geDir, h2, a]
      have g2 : geDir q r = .S := by simp [geDir, h3, b]
      rw [g1, g2]
      generalize (q.x - p.x) * (r.y - q.y) = z at *
      simp [cornKind, turnSign, cornDir]; omega

/-- corner `i` of an outline with vertices `vs` and edges `es`: at vertex `i`, between the edges before and after it, linked to its neighbours around the outline -/
structure CornerSide (vs : List Point) (es : List GeEdge) (i : Nat) (c : GeCorner) : Prop where
  pt : vs[i]? = some c.pt
  prevEdge : c.prevEdge = (i + vs.length - 1) % vs.length
  nextEdge : c.nextEdge = i
  prevCorner : c.prevCorner = some ((i + vs.length - 1) % vs.length)
  nextCorner : c.nextCorner = some ((i + 1) % vs.length)
  convex : c.kind = .convex ↔ LeftTurn ((es.getD c.prevEdge default).seen 0) ((es.getD c.nextEdge default).seen 0)
  concave : c.kind = .concave ↔ RightTurn ((es.getD c.prevEdge default).seen 0) ((es.getD c.nextEdge default).seen 0)

/-- **C174 (corners).** For every outline with right angles there is exactly one corner for each vertex: it is linked to the edges and corners before and after it, and they to it,
and it is convex exactly where the outline, with the metal on its left, turns left. -/
theorem c174_corners (s : GeShapes) (vs : List Point) (h : RightAngled vs) : ∃ es cs ends, geRing (geFixed s) vs = some es ∧ geCorners s es = (cs, ends) ∧
    cs.length = vs.length ∧ ends.length = vs.length ∧
    ∀ i, i < vs.length → (∃ c, cs[i]? = some c ∧ CornerSide vs es i c) ∧ ends[i]? = some (some i, some ((i + 1) % vs.length)) := by
  have h4 := h.four
  have hr := geRing_closed (geFixed s) vs (by omega)
  have hlen : (geClosed (geFixed s) vs).length = vs.length := by simp [geClosed]
  have hc := geCorners_closed s (geClosed (geFixed s) vs) (by omega)
  rw [hlen] at hc
  refine ⟨_, _, _, hr, hc, by simp, by simp, ?_⟩
  intro i hi
  have hpi : (i + vs.length - 1) % vs.length < vs.length := Nat.mod_lt _ (by omega)
  have hsucc : ((i + vs.length - 1) % vs.length + 1) % vs.length = i := by
    rw [Nat.mod_add_mod, show i + vs.length - 1 + 1 = i + vs.length by omega, Nat.add_mod_right]
    exact Nat.mod_eq_of_lt hi
  have hD : ∀ k, k < vs.length → (geClosed (geFixed s) vs).getD k default = ⟨vs.getD k default, vs.getD ((k + 1) % vs.length) default,
      decide ((vs.getD k default, vs.getD ((k + 1) % vs.length) default) ∈ geFixed s), some ((k + vs.length - 1) % vs.length), some ((k + 1) % vs.length)⟩ := by
    intro k hk
    rw [List.getD, geClosed_get _ vs hk]; rfl
  have hp := hD _ hpi
  rw [hsucc] at hp
  have hq := hD _ hi
  have hang := h.angle (i + vs.length - 1) _ _ _ (getD_some' hpi) (by
      rw [← Nat.mod_add_mod, hsucc]; exact getD_some' hi) (by
      rw [show i + vs.length - 1 + 2 = (i + 1) + vs.length by omega, Nat.add_mod_right]
      exact getD_some' (Nat.mod_lt _ (by omega)))
  have ht := turn_kind (n := 0) hang
  refine ⟨⟨_, by rw [List.getElem?_map, List.getElem?_range hi]; rfl, ?_⟩, by rw [List.getElem?_map, List.getElem?_range hi]; rfl⟩
  refine ⟨?_, rfl, rfl, rfl, rfl, ?_, ?_⟩
  · simp only [geCornAt, hp]
    exact getD_some' hi
  · simp only [geCornAt, hp, hq, GeEdge.seen]
    exact ht.1
  · simp only [geCornAt, hp, hq, GeEdge.seen]
    exact ht.2.1

/-- the corners agree, in place, type and direction, with those that the checks of corner spacing read -/
theorem c174_corner_view (s : GeShapes) (vs : List Point) (h : RightAngled vs) (n i : Nat) (hi : i < vs.length) : ∃ es c, geRing (geFixed s) vs = some es ∧
    (geCorners s es).1[i]? = some c ∧ c.pt = (cornerAt (es.map (GeEdge.seen n)) i).pt ∧ c.kind = (cornerAt (es.map (GeEdge.seen n)) i).kind ∧
    c.dir = (cornerAt (es.map (GeEdge.seen n)) i).dir := by
  have h4 := h.four
  have hr := geRing_closed (geFixed s) vs (by omega)
  have hlen : (geClosed (geFixed s) vs).length = vs.length := by simp [geClosed]
  have hc := geCorners_closed s (geClosed (geFixed s) vs) (by omega)
  rw [hlen] at hc
  refine ⟨_, _, hr, by rw [hc]; simp only; rw [List.getElem?_map, List.getElem?_range hi]; rfl, ?_⟩
  have hpi : (i + vs.length - 1) % vs.length < vs.length := Nat.mod_lt _ (by omega)
  have hsucc : ((i + vs.length - 1) % vs.length + 1) % vs.length = i := by
    rw [Nat.mod_add_mod, show i + vs.length - 1 + 1 = i + vs.length by omega, Nat.add_mod_right]
    exact Nat.mod_eq_of_lt hi
  have hD : ∀ k, k < vs.length → (geClosed (geFixed s) vs).getD k default = ⟨vs.getD k default, vs.getD ((k + 1) % vs.length) default,
      decide ((vs.getD k default, vs.getD ((k + 1) % vs.length) default) ∈ geFixed s), some ((k + vs.length - 1) % vs.length), some ((k + 1) % vs.length)⟩ := by
    intro k hk
    rw [List.getD, geClosed_get _ vs hk]; rfl
  have hM : ∀ k, k < vs.length → ((geClosed (geFixed s) vs).map (GeEdge.seen n)).getD k default = ((geClosed (geFixed s) vs).getD k default).seen n := by
    intro k hk
    have hk' : k < (geClosed (geFixed s) vs).length := by omega
    rw [List.getD, List.getElem?_map, List.getElem?_eq_getElem hk', List.getD, List.getElem?_eq_getElem hk']; rfl
  have hml : ((geClosed (geFixed s) vs).map (GeEdge.seen n)).length = vs.length := by simp [geClosed]
  have hp := hD _ hpi
  rw [hsucc] at hp
  have hq := hD _ hi
  simp only [cornerAt, hml, Nat.mod_eq_of_lt hi, hM _ hpi, hM _ hi, geCornAt, hp, hq, GeEdge.seen, and_self]

/-! ### which corners count as fixed -/

theorem geRing_meet {fx : List (Point × Point)} {vs : List Point} {es : List GeEdge} (hr : geRing fx vs = some es) :
    2 ≤ es.length ∧ ∀ k, k < es.length → (es.getD ((k + es.length - 1) % es.length) default).hi = (es.getD k default).lo := by
  have hv : 2 ≤ vs.length := by
    match vs, hr with
    | [], hr => cases hr
    | [v], hr => cases hr
    | _ :: _ :: _, _ => simp
  rw [geRing_closed fx vs hv] at hr
  injection hr with hr
  subst hr
  have hlen : (geClosed fx vs).length = vs.length := by simp [geClosed]
  rw [hlen]
  refine ⟨hv, fun k hk => ?_⟩
  have hpk : (k + vs.length - 1) % vs.length < vs.length := Nat.mod_lt _ (by omega)
  have hsucc : ((k + vs.length - 1) % vs.length + 1) % vs.length = k := by
    rw [Nat.mod_add_mod, show k + vs.length - 1 + 1 = k + vs.length by omega, Nat.add_mod_right]
    exact Nat.mod_eq_of_lt hk
  have a := geClosed_get fx vs hpk
  have b := geClosed_get fx vs hk
  rw [hsucc] at a
  simp only [List.getD] at a b
  simp only [List.getD, a, b, Option.getD_some]

/-- **C175 (partial).** Of the corners that the checker makes for an outline, a corner of unknown type never counts as fixed; a convex one does exactly when it is the corner of a fixed cut in the same direction; a concave one
exactly when it is on no side of a routed cut -/
theorem c175_partial (s : GeShapes) (vs : List Point) (es : List GeEdge) (hr : geRing (geFixed s) vs = some es) (i : Nat) (c : GeCorner)
    (hc : (geCorners s es).1[i]? = some c) :
    (c.kind = .convex → (c.fixed = true ↔ ∃ b ∈ s.fixedRects, (c.dir = .ne ∧ c.pt = b.ur) ∨ (c.dir = .se ∧ c.pt = ⟨b.right, b.bottom⟩) ∨
      (c.dir = .sw ∧ c.pt = b.ll) ∨ (c.dir = .nw ∧ c.pt = ⟨b.left, b.top⟩))) ∧
    (c.kind = .concave → (c.fixed = true ↔ ∀ b ∈ s.routeRects, b.Has c.pt → b.left < c.pt.x ∧ c.pt.x < b.right ∧ b.bottom < c.pt.y ∧ c.pt.y < b.top)) ∧
    (c.kind = .unknown → c.fixed = false) := by
  obtain ⟨h2, hmeet⟩ := geRing_meet hr
  rw [geCorners_closed s es h2] at hc
  simp only at hc
  have hi : i < es.length := by
    have := (List.getElem?_eq_some_iff.1 hc).1
    simpa using this
  rw [List.getElem?_map, List.getElem?_range hi] at hc
  simp only [Option.map_some, Option.some.injEq] at hc
  have hm := hmeet i hi
  subst hc
  simp only [geCornAt]
  generalize cornKind _ _ = k
  generalize cornDir _ _ = d
  rw [hm]
  generalize (es.getD i default).lo = p
  refine ⟨?_, ?_, ?_⟩
  · intro hk
    subst hk
    simp only [geCornerFixed, List.any_eq_true]
    constructor
    · rintro ⟨b, hb, h⟩
      refine ⟨b, hb, ?_⟩
      cases d <;> simp only [geCornerOn, Bool.and_eq_true, decide_eq_true_eq, Bool.false_eq_true] at h
      · exact Or.inl ⟨rfl, by cases p; cases hb' : b.ur; simp_all [Box.right, Box.top]⟩
      · exact Or.inr (Or.inl ⟨rfl, by cases p; simp_all⟩)
      · exact Or.inr (Or.inr (Or.inl ⟨rfl, by cases p; cases hb' : b.ll; simp_all [Box.left, Box.bottom]⟩))
      · exact Or.inr (Or.inr (Or.inr ⟨rfl, by cases p; simp_all⟩))
    · rintro ⟨b, hb, h⟩
      refine ⟨b, hb, ?_⟩
      rcases h with ⟨rfl, h⟩ | ⟨rfl, h⟩ | ⟨rfl, h⟩ | ⟨rfl, h⟩ <;> simp [geCornerOn, h]
  · intro hk
    subst hk
    simp only [geCornerFixed, Bool.not_eq_true', List.any_eq_false, Box.containsPt, Bool.and_eq_true, decide_eq_true_eq, if_true, Bool.false_eq_true, if_false,
      Box.Has, Bool.not_eq_false', not_and]
    constructor
    · intro h b hb hin
      have := h b hb
      simp only [Box.left, Box.right, Box.bottom, Box.top] at *
      apply Classical.byContradiction
      intro hno
      refine this ?_ ?_
      · omega
      · simp
        omega
    · intro h b hb hin
      have := h b hb
      simp only [Box.left, Box.right, Box.bottom, Box.top] at *
      have := this (by omega)
      simp
      omega
  · intro hk
    subst hk
    rfl

/-- **C175 (finding).** On a layer of metal, where a net has no cuts, no convex corner counts as fixed and every concave one does, whatever shapes made it. -/
theorem c175_metal (s : GeShapes) (hr : s.routeRects = []) (hf : s.fixedRects = []) (vs : List Point) (es : List GeEdge)
    (h : geRing (geFixed s) vs = some es) (c : GeCorner) (hc : c ∈ (geCorners s es).1) :
    (c.kind = .convex → c.fixed = false) ∧ (c.kind = .concave → c.fixed = true) := by
  have h2 := (geRing_meet h).1
  rw [geCorners_closed s es h2] at hc
  simp only [List.mem_map] at hc
  obtain ⟨i, _, rfl⟩ := hc
  simp only [geCornAt]
  generalize cornKind _ _ = k
  generalize cornDir _ _ = d
  constructor <;> intro hk <;> subst hk <;> simp [geCornerFixed, hr, hf]

/-! ### examples -/

/-- a fixed rectangle and a routed one that together make an L -/
def geEll : List Point := [⟨0, 0⟩, ⟨10, 0⟩, ⟨10, 4⟩, ⟨4, 4⟩, ⟨4, 10⟩, ⟨0, 10⟩]

def geEllShapes : GeShapes := ⟨[⟨geEll, []⟩], [⟨[⟨0, 0⟩, ⟨10, 0⟩, ⟨10, 4⟩, ⟨0, 4⟩], []⟩], [], []⟩

theorem geEll_right : RightAngled geEll := by
  refine ⟨by decide, ?_⟩
  intro k p q r hp hq hr
  have hk : k % 6 < 6 := Nat.mod_lt _ (by omega)
  have hl : geEll.length = 6 := rfl
  rw [hl] at hp hq hr
  rw [Nat.add_mod] at hq hr
  generalize k % 6 = m at *
  have : m = 0 ∨ m = 1 ∨ m = 2 ∨ m = 3 ∨ m = 4 ∨ m = 5 := by omega
  rcases this with rfl | rfl | rfl | rfl | rfl | rfl <;> simp [geEll] at hp hq hr <;> subst hp hq hr <;> simp

/-- the edges of the L: those that the fixed rectangle has as well, in full, are fixed -/
example : (geRing (geFixed geEllShapes) geEll).map (fun es => es.map (fun e => (e.fixed, e.prev, e.next))) =
    some [(true, some 5, some 1), (true, some 0, some 2), (false, some 1, some 3), (false, some 2, some 4), (false, some 3, some 5), (false, some 4, some 0)] := by
  decide +kernel

/-- **C175 (finding, witness).** A corner between two edges of a fixed rectangle does not count as fixed, and the corner that a routed shape makes with it does. -/
theorem c175_witness : ((geRing (geFixed geEllShapes) geEll).map (fun es => (geCorners geEllShapes es).1.map (fun c => (c.pt, c.kind, c.fixed)))) =
    some [(⟨0, 0⟩, .convex, false), (⟨10, 0⟩, .convex, false), (⟨10, 4⟩, .convex, false), (⟨4, 4⟩, .concave, true), (⟨4, 10⟩, .convex, false), (⟨0, 10⟩, .convex, false)] := by
  decide +kernel

/-- a fixed and a routed cut -/
def geCutShapes : GeShapes := ⟨[], [], [⟨⟨20, 0⟩, ⟨22, 2⟩⟩], [⟨⟨0, 0⟩, ⟨2, 2⟩⟩]⟩

example : (gePins geCutShapes).map (fun p => (gePin geCutShapes p).map (fun rs => rs.map (fun es => ((es.map (fun e => e.fixed)), (geCorners geCutShapes es).1.map (fun c => c.fixed))))) =
    [some [([false, false, false, false], [false, false, false, false])], some [([true, true, true, true], [true, true, true, true])]] := by decide +kernel

end TR
