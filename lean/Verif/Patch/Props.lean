import Verif.Patch.Geo
import Verif.Track.Props
import Verif.Maze.GridProps
/-! Property theorems C95–C98: patches for the minimum-area rule. -/
namespace TR

/-! ## The points of a path -/

theorem levels_spec (a b : Int) : ∀ z ∈ levels a b, (a ≤ z ∧ z < b) ∨ (b < z ∧ z ≤ a) := by
  intro z hz
  unfold levels at hz
  split at hz
  · obtain ⟨k, hk, rfl⟩ := List.mem_map.1 hz
    rw [List.mem_range] at hk; omega
  · obtain ⟨k, hk, rfl⟩ := List.mem_map.1 hz
    rw [List.mem_range] at hk; omega

theorem levels_len (a b : Int) : (levels a b).length = (a - b).natAbs := by
  unfold levels
  split
  · simp; omega
  · simp; omega

theorem levels_get (a b : Int) (k : Nat) (hk : k < (a - b).natAbs) :
    (levels a b)[k]? = some (if a < b then a + k else a - k) := by
  unfold levels
  split
  · rename_i h
    rw [List.getElem?_map, List.getElem?_range (by omega)]; rfl
  · rename_i h
    rw [List.getElem?_map, List.getElem?_range (by omega)]; rfl

theorem patchPoints_head (p : MIdx) (ps : List MIdx) : ∃ qs, patchPoints (p :: ps) = p :: qs := by
  cases ps with
  | nil => exact ⟨[], rfl⟩
  | cons q rest =>
    simp only [patchPoints]
    split
    · exact ⟨_, rfl⟩
    · rename_i h
      have hg := levels_get p.z q.z 0 (by omega)
      have hl := levels_len p.z q.z
      cases hL : levels p.z q.z with
      | nil => rw [hL] at hg; simp at hg
      | cons z zs =>
        rw [hL] at hg
        simp only [List.getElem?_cons_zero, Option.some.injEq] at hg
        refine ⟨zs.map (fun z => ⟨p.x, p.y, z⟩) ++ patchPoints (q :: rest), ?_⟩
        simp only [List.map_cons, List.cons_append, List.cons.injEq, and_true]
        rw [hg]; cases p; simp

theorem patchPoints_last (p : MIdx) (ps : List MIdx) : (patchPoints (p :: ps)).getLast? = (p :: ps).getLast? := by
  induction ps generalizing p with
  | nil => rfl
  | cons q rest ih =>
    simp only [patchPoints, List.getLast?_cons_cons, List.getLast?_append]
    rw [ih q]
    cases h : (q :: rest).getLast? with
    | none => simp at h
    | some x => rfl

theorem chain_levels (x y : Int) : ∀ (zs : List Int) (q : MIdx) (rest : List MIdx), q.x = x → q.y = y →
    (∀ k, k + 1 < zs.length → ∃ a b, zs[k]? = some a ∧ zs[k + 1]? = some b ∧ (a - b).natAbs = 1) →
    (∀ a, zs.getLast? = some a → (a - q.z).natAbs = 1) →
    Consecutive PatchStepOK (q :: rest) → Consecutive PatchStepOK (zs.map (fun z => ⟨x, y, z⟩) ++ q :: rest)
  | [], _, _, _, _, _, _, h => h
  | [a], q, rest, h1, h2, _, hl, h => by
    refine ⟨Or.inr ⟨h1.symm, h2.symm, hl a rfl⟩, h⟩
  | a :: b :: zs, q, rest, h1, h2, hk, hl, h => by
    have ih := chain_levels x y (b :: zs) q rest h1 h2 (fun k hk' => by
      have := hk (k + 1) (by simp at hk' ⊢; omega)
      simpa using this) (fun c hc => hl c (by simpa [List.getLast?_cons_cons] using hc)) h
    refine ⟨Or.inr ⟨rfl, rfl, ?_⟩, ih⟩
    obtain ⟨c, d, e1, e2, e3⟩ := hk 0 (by simp)
    simp at e1 e2
    subst e1; subst e2
    exact e3

theorem patchPoints_steps : ∀ path : List MIdx,
    Consecutive (fun p q => p.z ≠ q.z → p.x = q.x ∧ p.y = q.y) path → Consecutive PatchStepOK (patchPoints path)
  | [], _ => trivial
  | [_], _ => trivial
  | p :: q :: rest, h => by
    have ih := patchPoints_steps (q :: rest) h.2
    obtain ⟨qs, hq⟩ := patchPoints_head q rest
    simp only [patchPoints]
    split
    · rename_i hz
      rw [hq] at ih ⊢
      exact ⟨Or.inl hz, ih⟩
    · rename_i hz
      rw [hq] at ih ⊢
      obtain ⟨e1, e2⟩ := h.1 hz
      refine chain_levels p.x p.y _ q qs e1.symm e2.symm ?_ ?_ ih
      · intro k hk
        rw [levels_len] at hk
        refine ⟨_, _, levels_get _ _ k (by omega), levels_get _ _ (k + 1) hk, ?_⟩
        split <;> omega
      · intro a ha
        rw [List.getLast?_eq_getElem?, levels_len, levels_get _ _ _ (by omega)] at ha
        simp only [Option.some.injEq] at ha
        subst ha
        split <;> omega

theorem consec_ptAt {R : MIdx → MIdx → Prop} : ∀ (pts : List MIdx), Consecutive R pts → ∀ k, k + 1 < pts.length →
    R (ptAt pts k) (ptAt pts (k + 1))
  | [], _, k, h => by simp at h
  | [_], _, k, h => by simp at h
  | p :: q :: rest, hc, 0, _ => hc.1
  | p :: q :: rest, hc, k + 1, h => consec_ptAt (q :: rest) hc.2 k (by simpa using h)

/-- C95: the requests made for a path are exactly those of its runs: a run (a maximal part on one
layer, stacked vias taken apart) gets a patch exactly if the area of its wire and of the half vias
or of the metal known to be at its ends stays below the minimum area of the layer. -/
theorem c95_one_patch_per_short_run (g : Grid) (T : PatchTech) (amap : MIdx → Option Int) (path : List MIdx)
    (hv : Consecutive (fun p q => p.z ≠ q.z → p.x = q.x ∧ p.y = q.y) path)
    (hw : ∀ z, 0 ≤ T.width z) (hh : ∀ z, 0 ≤ (T.halfEnc z).1 ∧ 0 ≤ (T.halfEnc z).2)
    (hm : ∀ n v, amap n = some v → 0 ≤ v) :
    patchReqs g T amap path = (pathRuns (patchPoints path)).filterMap (fun r => r.need g T amap) := by
  cases path with
  | nil => rfl
  | cons p ps =>
    obtain ⟨qs, hq⟩ := patchPoints_head p ps
    have hs := patchPoints_steps _ hv
    unfold patchReqs pathRuns
    rw [hq] at hs ⊢
    dsimp only
    have e : (List.range qs.length).foldl (fun st k => patchStep g T (p :: qs) st (k + 1))
        { area := (amap p).getD (T.req p.z), start := 0, prevI := 0, out := [] } =
        (List.range' 1 qs.length).foldl (patchStep g T (p :: qs))
          { area := (amap p).getD (T.req p.z), start := 0, prevI := 0, out := [] } := by
      rw [List.range'_eq_map_range, List.foldl_map]
      simp only [Nat.add_comm 1]
    rw [e]
    have := patch_loop g T amap hw (p :: qs) qs [p] 0 1 p.z
      { area := (amap p).getD (T.req p.z), start := 0, prevI := 0, out := [] } none _
      ⟨rfl, rfl, by simp, by simp⟩ rfl rfl rfl (by left; simp [centreLen]; rfl)
      (fun k hk => by
        rcases consec_ptAt _ hs k hk with h | h
        · omega
        · omega) hh hm
    simpa using this

/-- C95: the points of a path are its corners with the levels of stacked vias in between. -/
theorem c95_points (p : MIdx) (ps : List MIdx)
    (hv : Consecutive (fun p q => p.z ≠ q.z → p.x = q.x ∧ p.y = q.y) (p :: ps)) :
    (patchPoints (p :: ps)).head? = some p ∧ (patchPoints (p :: ps)).getLast? = (p :: ps).getLast? ∧
    Consecutive PatchStepOK (patchPoints (p :: ps)) ∧ (∀ q ∈ p :: ps, q ∈ patchPoints (p :: ps)) := by
  obtain ⟨qs, hq⟩ := patchPoints_head p ps
  refine ⟨by rw [hq]; rfl, patchPoints_last p ps, patchPoints_steps _ hv, ?_⟩
  clear hv hq qs
  induction ps generalizing p with
  | nil => simp [patchPoints]
  | cons q rest ih =>
    intro x hx
    rcases List.mem_cons.1 hx with rfl | hx
    · obtain ⟨qs, hq⟩ := patchPoints_head x (q :: rest)
      rw [hq]; simp
    · simp only [patchPoints, List.mem_append]
      exact Or.inr (ih q x hx)

/-! ## The area reached -/

theorem cover_run (g : Grid) (horz : Bool) (lo hi : MIdx) (w : Int) (hlh : g.alongPos horz lo ≤ g.alongPos horz hi)
    (hrow : alongIdx (!horz) lo = alongIdx (!horz) hi) (hw : 0 < w) (he : w % 2 = 0)
    (xl yl xh yh : Int) (h1 : 0 ≤ xl) (h2 : 0 ≤ yl) (h3 : 0 ≤ xh) (h4 : 0 ≤ yh) (bs : List Box)
    (hwire : slab horz (g.alongPos horz lo) (g.alongPos horz hi) (g.alongPos (!horz) lo - w / 2) (g.alongPos (!horz) lo + w / 2) ∈ bs)
    (hvl : (viaBox xl yl).moved (g.pos lo) ∈ bs) (hvh : (viaBox xh yh).moved (g.pos hi) ∈ bs) :
    CoversAtLeast bs (viaAlong horz xl yl * (2 * viaAlong (!horz) xl yl) + (g.alongPos horz hi - g.alongPos horz lo) * w
      + viaAlong horz xh yh * (2 * viaAlong (!horz) xh yh)) ∧
    (∀ net len, 0 ≤ len → (patchWire g net lo horz true len w).metal ∈ bs →
      CoversAtLeast bs (len * w + (g.alongPos horz hi - g.alongPos horz lo) * w
        + viaAlong horz xh yh * (2 * viaAlong (!horz) xh yh))) ∧
    (∀ net len, 0 ≤ len → (patchWire g net hi horz false len w).metal ∈ bs →
      CoversAtLeast bs (viaAlong horz xl yl * (2 * viaAlong (!horz) xl yl)
        + (g.alongPos horz hi - g.alongPos horz lo) * w + len * w)) := by
  have hac := across_same (g := g) hrow
  have n1 : 0 ≤ viaAlong horz xl yl := by unfold viaAlong; split <;> omega
  have n2 : 0 ≤ viaAlong (!horz) xl yl := by unfold viaAlong; split <;> omega
  have n3 : 0 ≤ viaAlong horz xh yh := by unfold viaAlong; split <;> omega
  have n4 : 0 ≤ viaAlong (!horz) xh yh := by unfold viaAlong; split <;> omega
  have ew : ∀ C : Int, (C + w / 2) - (C - w / 2) = w := by intro C; omega
  have ev : ∀ C v : Int, (C + v) - (C - v) = 2 * v := by intro C v; omega
  refine ⟨?_, ?_, ?_⟩
  · have := covers_three horz bs (g.alongPos horz lo - viaAlong horz xl yl) (g.alongPos horz lo) (g.alongPos horz hi)
      (g.alongPos horz hi + viaAlong horz xh yh) (g.alongPos (!horz) lo - viaAlong (!horz) xl yl)
      (g.alongPos (!horz) lo + viaAlong (!horz) xl yl) (g.alongPos (!horz) lo - w / 2) (g.alongPos (!horz) lo + w / 2)
      (g.alongPos (!horz) hi - viaAlong (!horz) xh yh) (g.alongPos (!horz) hi + viaAlong (!horz) xh yh)
      (by omega) hlh (by omega) (by omega) (by omega) (by omega)
      (fun c hc => ⟨_, hvl, (viaBox_half g horz lo xl yl h1 h2 c).2 hc⟩) (fun c hc => ⟨_, hwire, hc⟩)
      (fun c hc => ⟨_, hvh, (viaBox_half g horz hi xh yh h3 h4 c).1 hc⟩)
    rw [ew, ev, ev] at this
    rw [show g.alongPos horz lo - (g.alongPos horz lo - viaAlong horz xl yl) = viaAlong horz xl yl by omega,
      show g.alongPos horz hi + viaAlong horz xh yh - g.alongPos horz hi = viaAlong horz xh yh by omega] at this
    exact this
  · intro net len hlen hp
    rw [patchWire_slab g net lo horz true len w (by omega)] at hp
    simp only [if_true] at hp
    have := covers_three horz bs (g.alongPos horz lo - len) (g.alongPos horz lo) (g.alongPos horz hi)
      (g.alongPos horz hi + viaAlong horz xh yh) (g.alongPos (!horz) lo - w / 2) (g.alongPos (!horz) lo + w / 2)
      (g.alongPos (!horz) lo - w / 2) (g.alongPos (!horz) lo + w / 2)
      (g.alongPos (!horz) hi - viaAlong (!horz) xh yh) (g.alongPos (!horz) hi + viaAlong (!horz) xh yh)
      (by omega) hlh (by omega) (by omega) (by omega) (by omega)
      (fun c hc => ⟨_, hp, hc⟩) (fun c hc => ⟨_, hwire, hc⟩)
      (fun c hc => ⟨_, hvh, (viaBox_half g horz hi xh yh h3 h4 c).1 hc⟩)
    rw [ew, ev] at this
    rw [show g.alongPos horz lo - (g.alongPos horz lo - len) = len by omega,
      show g.alongPos horz hi + viaAlong horz xh yh - g.alongPos horz hi = viaAlong horz xh yh by omega] at this
    exact this
  · intro net len hlen hp
    rw [patchWire_slab g net hi horz false len w (by omega), ← hac] at hp
    simp only [Bool.false_eq_true, if_false] at hp
    have := covers_three horz bs (g.alongPos horz lo - viaAlong horz xl yl) (g.alongPos horz lo) (g.alongPos horz hi)
      (g.alongPos horz hi + len) (g.alongPos (!horz) lo - viaAlong (!horz) xl yl)
      (g.alongPos (!horz) lo + viaAlong (!horz) xl yl) (g.alongPos (!horz) lo - w / 2) (g.alongPos (!horz) lo + w / 2)
      (g.alongPos (!horz) lo - w / 2) (g.alongPos (!horz) lo + w / 2)
      (by omega) hlh (by omega) (by omega) (by omega) (by omega)
      (fun c hc => ⟨_, hvl, (viaBox_half g horz lo xl yl h1 h2 c).2 hc⟩) (fun c hc => ⟨_, hwire, hc⟩)
      (fun c hc => ⟨_, hp, hc⟩)
    rw [ew, ev] at this
    rw [show g.alongPos horz lo - (g.alongPos horz lo - viaAlong horz xl yl) = viaAlong horz xl yl by omega,
      show g.alongPos horz hi + len - g.alongPos horz hi = len by omega] at this
    exact this

/-- a straight run has a lower and an upper end; patches point away from the wire -/
theorem straight_ends (g : Grid) (hx : g.xs.Pairwise (· ≤ ·)) (hy : g.ys.Pairwise (· ≤ ·)) (horz : Bool) (pts : List MIdx)
    (hne : pts ≠ []) (hon : ∀ p ∈ pts, g.On p) (hs : StraightRun g horz pts) :
    alongIdx (!horz) (pts.headD ⟨0, 0, 0⟩) = alongIdx (!horz) (pts.getLastD ⟨0, 0, 0⟩) ∧
    ((g.alongPos horz (pts.headD ⟨0, 0, 0⟩) ≤ g.alongPos horz (pts.getLastD ⟨0, 0, 0⟩) ∧
      (centreLen g pts : Int) = g.alongPos horz (pts.getLastD ⟨0, 0, 0⟩) - g.alongPos horz (pts.headD ⟨0, 0, 0⟩) ∧
      sideAt horz true (pts.getLastD ⟨0, 0, 0⟩) pts = true ∧
      sideAt horz false (pts.headD ⟨0, 0, 0⟩) pts.reverse = false) ∨
     (g.alongPos horz (pts.getLastD ⟨0, 0, 0⟩) ≤ g.alongPos horz (pts.headD ⟨0, 0, 0⟩) ∧
      (centreLen g pts : Int) = g.alongPos horz (pts.headD ⟨0, 0, 0⟩) - g.alongPos horz (pts.getLastD ⟨0, 0, 0⟩) ∧
      sideAt horz true (pts.getLastD ⟨0, 0, 0⟩) pts = false ∧
      sideAt horz false (pts.headD ⟨0, 0, 0⟩) pts.reverse = true)) := by
  rcases pts with _ | ⟨p, ps⟩
  · exact absurd rfl hne
  have hl : (p :: ps).getLastD ⟨0, 0, 0⟩ = ps.getLastD p := by cases ps <;> rfl
  have hmem : ps.getLastD p ∈ p :: ps := by
    cases ps with
    | nil => simp
    | cons q qs =>
      have : (q :: qs).getLastD p = (q :: qs).getLast (by simp) := by simp [List.getLastD_eq_getLast?, List.getLast?_eq_some_getLast]
      rw [this]; exact List.mem_cons_of_mem _ (List.getLast_mem _)
  rw [hl]
  simp only [List.headD_cons]
  have row : ∀ a ∈ p :: ps, ∀ b ∈ p :: ps, alongIdx (!horz) a = alongIdx (!horz) b := by
    cases hs with
    | up r _ => exact r
    | down r _ => exact r
  refine ⟨row p (by simp) _ hmem, ?_⟩
  have rev : ∀ (q : MIdx) (qs : List MIdx), ps = q :: qs → ∃ u v r, (p :: ps).reverse = u :: v :: r ∧
      u = ps.getLastD p ∧ (v, u) ∈ [(v, u)] ∧ ∃ pre, p :: ps = pre ++ [v, u] := by
    intro q qs h
    have hlen : 2 ≤ (p :: ps).reverse.length := by rw [h]; simp
    rcases hr : (p :: ps).reverse with _ | ⟨u, _ | ⟨v, r⟩⟩
    · rw [hr] at hlen; simp at hlen
    · rw [hr] at hlen; simp at hlen
    · refine ⟨u, v, r, rfl, ?_, by simp, r.reverse, ?_⟩
      · have : (p :: ps).getLast? = some u := by rw [← List.head?_reverse, hr]; rfl
        rw [← hl, List.getLastD_eq_getLast?, this]; rfl
      · rw [← List.reverse_reverse (p :: ps), hr]; simp
  cases hs with
  | up _ inc =>
    obtain ⟨a1, a2⟩ := centre_up hx hy horz ps p hon row inc
    left
    refine ⟨a1, a2, ?_, ?_⟩
    · cases ps with
      | nil => rfl
      | cons q qs =>
        have := (List.pairwise_cons.1 inc).1 q (by simp)
        simp [sideAt, goesLeft, this]
    · cases hps : ps with
      | nil => rfl
      | cons q qs =>
        obtain ⟨u, v, r, e1, e2, _, pre, e3⟩ := rev q qs hps
        rw [← hps, e1]
        have hvu : alongIdx horz v < alongIdx horz u := by
          rw [e3, List.pairwise_append] at inc
          simpa using (List.pairwise_cons.1 inc.2.1).1 u (by simp)
        simp only [sideAt, goesLeft, decide_eq_false_iff_not]
        omega
  | down _ dec =>
    obtain ⟨a1, a2⟩ := centre_down hx hy horz ps p hon row dec
    cases hps : ps with
    | nil => left; simp [centreLen, sideAt]
    | cons q qs =>
      right
      rw [← hps]
      refine ⟨a1, a2, ?_, ?_⟩
      · have h1 := (List.pairwise_cons.1 dec).1 q (by rw [hps]; simp)
        rw [hps]
        simp only [sideAt, goesLeft, decide_eq_false_iff_not]
        omega
      · obtain ⟨u, v, r, e1, e2, _, pre, e3⟩ := rev q qs hps
        rw [e1]
        have hvu : alongIdx horz u < alongIdx horz v := by
          rw [e3, List.pairwise_append] at dec
          simpa using (List.pairwise_cons.1 dec.2.1).1 u (by simp)
        simp [sideAt, goesLeft, hvu]

theorem RunMetal.area {g : Grid} {T : PatchTech} {r : PathRun} {x1 y1 x2 y2 : Int} (h : RunMetal g T r x1 y1 x2 y2)
    (amap : MIdx → Option Int) : r.area g T amap =
      viaHalf T r.level r.before + centreLen g r.pts * T.width r.level + viaHalf T r.level r.after := by
  unfold PathRun.area PathRun.atStart PathRun.atEnd PathRun.wire
  have h1 := h.before
  have h2 := h.after
  cases hb : r.before with
  | none => exact absurd hb h1
  | some b =>
    cases ha : r.after with
    | none => exact absurd ha h2
    | some a => rfl

/-- C96: after the patch the metal of a straight run between two vias has the minimum area: the
union of its wire, the shapes of its two vias and the patch covers at least the required area. -/
theorem c96_minimum_area_reached (g : Grid) (S : SeekTech) (T : PatchTech) (E : PatchEnv) (net : Nat)
    (amap : MIdx → Option Int) (r : PathRun) (x1 y1 x2 y2 : Int) (h : RunMetal g T r x1 y1 x2 y2) (q : PatchReq)
    (hq : r.need g T amap = some q) :
    CoversAtLeast ((patchMetal g S T E net q).metal :: r.metal g T x1 y1 x2 y2) (T.req r.level) := by
  have harea := h.area amap
  unfold PathRun.need at hq
  split at hq
  · rename_i hlt
    simp only [Option.some.injEq] at hq
    rw [harea] at hlt
    obtain ⟨n1, n2, n3, n4⟩ := h.nonneg
    have hs1 := via_half_area (T.horz r.level) x1 y1 n1 n2
    have hs2 := via_half_area (T.horz r.level) x2 y2 n3 n4
    have p1 : 0 ≤ viaHalf T r.level r.before := by
      rw [h.half1, hs1]
      exact Int.mul_nonneg (by unfold viaAlong; split <;> omega) (by unfold viaAlong; split <;> omega)
    have p2 : 0 ≤ viaHalf T r.level r.after := by
      rw [h.half2, hs2]
      exact Int.mul_nonneg (by unfold viaAlong; split <;> omega) (by unfold viaAlong; split <;> omega)
    have hgap : q.gap = T.req r.level - centreLen g r.pts * T.width r.level
        - min (viaHalf T r.level r.before) (viaHalf T r.level r.after) := by
      rw [← hq, harea]; dsimp only; omega
    obtain ⟨g1, _, _⟩ := marLen_spec T q.gap (T.width r.level) h.wpos h.mfg
    have hgp : 0 < q.gap := by omega
    have hlen : 0 ≤ marLen T q.gap (T.width r.level) := by
      rcases Int.lt_or_le (marLen T q.gap (T.width r.level)) 0 with hn | hn
      · have := Int.mul_neg_of_neg_of_pos hn h.wpos
        omega
      · exact hn
    have hbpz : q.bp.z = r.level := by rw [← hq]; rfl
    obtain ⟨hrow, hends⟩ := straight_ends g h.xInc h.yInc (T.horz r.level) r.pts h.ne h.on h.straight
    change alongIdx (!T.horz r.level) r.first = alongIdx (!T.horz r.level) r.final at hrow
    have hwb := wireBox_slab g (T.horz r.level) r.first r.final (T.width r.level) hrow
    have hmem1 : (viaBox x1 y1).moved (g.pos r.first) ∈
        (patchMetal g S T E net q).metal :: r.metal g T x1 y1 x2 y2 := by simp [PathRun.metal]
    have hmem2 : (viaBox x2 y2).moved (g.pos r.final) ∈
        (patchMetal g S T E net q).metal :: r.metal g T x1 y1 x2 y2 := by simp [PathRun.metal]
    have hmemw : wireBox (T.horz r.level) (g.pos r.first) (g.pos r.final) (T.width r.level) ∈
        (patchMetal g S T E net q).metal :: r.metal g T x1 y1 x2 y2 := by simp [PathRun.metal]
    have hmemp : (patchMetal g S T E net q).metal ∈
        (patchMetal g S T E net q).metal :: r.metal g T x1 y1 x2 y2 := by simp
    generalize hbs : (patchMetal g S T E net q).metal :: r.metal g T x1 y1 x2 y2 = bs at *
    unfold patchMetal at hmemp
    dsimp only at hmemp
    rw [hbpz] at hmemp
    have hqe : q.bp = r.first ∧ q.ep = r.final ∧ q.bpLeft = sideAt (T.horz r.level) true r.final r.pts ∧
        q.epLeft = sideAt (T.horz r.level) false r.first r.pts.reverse := by rw [← hq]; exact ⟨rfl, rfl, rfl, rfl⟩
    obtain ⟨q1, q2, q3, q4⟩ := hqe
    rcases hends with ⟨e1, e2, e3, e4⟩ | ⟨e1, e2, e3, e4⟩
    · change g.alongPos (T.horz r.level) r.first ≤ g.alongPos (T.horz r.level) r.final at e1
      rw [Int.min_eq_left e1, Int.max_eq_right e1] at hwb
      rw [hwb] at hmemw
      obtain ⟨_, c2, c3⟩ := cover_run g (T.horz r.level) r.first r.final (T.width r.level) e1 hrow h.wpos h.even
        x1 y1 x2 y2 n1 n2 n3 n4 bs hmemw hmem1 hmem2
      rw [← hs1, ← h.half1] at c3
      rw [← hs2, ← h.half2] at c2
      have e2' : (centreLen g r.pts : Int) * T.width r.level =
          (g.alongPos (T.horz r.level) r.final - g.alongPos (T.horz r.level) r.first) * T.width r.level := by
        rw [e2]; rfl
      rw [← e2'] at c2 c3
      change sideAt (T.horz r.level) true r.final r.pts = true at e3
      change sideAt (T.horz r.level) false r.first r.pts.reverse = false at e4
      split at hmemp
      · rw [q1, q3, e3] at hmemp
        exact covers_mono (c2 net _ hlen hmemp) (by omega)
      · rw [q2, q4, e4] at hmemp
        exact covers_mono (c3 net _ hlen hmemp) (by omega)
    · change g.alongPos (T.horz r.level) r.final ≤ g.alongPos (T.horz r.level) r.first at e1
      rw [Int.min_eq_right e1, Int.max_eq_left e1, across_same (g := g) hrow] at hwb
      rw [hwb] at hmemw
      obtain ⟨_, c2, c3⟩ := cover_run g (T.horz r.level) r.final r.first (T.width r.level) e1 hrow.symm h.wpos h.even
        x2 y2 x1 y1 n3 n4 n1 n2 bs hmemw hmem2 hmem1
      rw [← hs2, ← h.half2] at c3
      rw [← hs1, ← h.half1] at c2
      have e2' : (centreLen g r.pts : Int) * T.width r.level =
          (g.alongPos (T.horz r.level) r.first - g.alongPos (T.horz r.level) r.final) * T.width r.level := by
        rw [e2]; rfl
      rw [← e2'] at c2 c3
      change sideAt (T.horz r.level) true r.final r.pts = false at e3
      change sideAt (T.horz r.level) false r.first r.pts.reverse = true at e4
      split at hmemp
      · rw [q1, q3, e3] at hmemp
        exact covers_mono (c3 net _ hlen hmemp) (by omega)
      · rw [q2, q4, e4] at hmemp
        exact covers_mono (c2 net _ hlen hmemp) (by omega)
  · simp at hq

/-- C96: a straight run between two vias that gets no patch has the minimum area already. -/
theorem c96_no_patch_needed (g : Grid) (T : PatchTech) (amap : MIdx → Option Int) (r : PathRun) (x1 y1 x2 y2 : Int)
    (h : RunMetal g T r x1 y1 x2 y2) (hq : r.need g T amap = none) :
    CoversAtLeast (r.metal g T x1 y1 x2 y2) (T.req r.level) := by
  have harea := h.area amap
  unfold PathRun.need at hq
  split at hq
  · simp at hq
  · rename_i hlt
    rw [harea] at hlt
    obtain ⟨n1, n2, n3, n4⟩ := h.nonneg
    have hs1 := via_half_area (T.horz r.level) x1 y1 n1 n2
    have hs2 := via_half_area (T.horz r.level) x2 y2 n3 n4
    obtain ⟨hrow, hends⟩ := straight_ends g h.xInc h.yInc (T.horz r.level) r.pts h.ne h.on h.straight
    change alongIdx (!T.horz r.level) r.first = alongIdx (!T.horz r.level) r.final at hrow
    have hwb := wireBox_slab g (T.horz r.level) r.first r.final (T.width r.level) hrow
    have hmem1 : (viaBox x1 y1).moved (g.pos r.first) ∈ r.metal g T x1 y1 x2 y2 := by simp [PathRun.metal]
    have hmem2 : (viaBox x2 y2).moved (g.pos r.final) ∈ r.metal g T x1 y1 x2 y2 := by simp [PathRun.metal]
    have hmemw : wireBox (T.horz r.level) (g.pos r.first) (g.pos r.final) (T.width r.level) ∈
        r.metal g T x1 y1 x2 y2 := by simp [PathRun.metal]
    rcases hends with ⟨e1, e2, _, _⟩ | ⟨e1, e2, _, _⟩
    · change g.alongPos (T.horz r.level) r.first ≤ g.alongPos (T.horz r.level) r.final at e1
      rw [Int.min_eq_left e1, Int.max_eq_right e1] at hwb
      rw [hwb] at hmemw
      obtain ⟨c1, _, _⟩ := cover_run g (T.horz r.level) r.first r.final (T.width r.level) e1 hrow h.wpos h.even
        x1 y1 x2 y2 n1 n2 n3 n4 _ hmemw hmem1 hmem2
      rw [← hs1, ← h.half1, ← hs2, ← h.half2] at c1
      have e2' : (centreLen g r.pts : Int) * T.width r.level =
          (g.alongPos (T.horz r.level) r.final - g.alongPos (T.horz r.level) r.first) * T.width r.level := by
        rw [e2]; rfl
      rw [← e2'] at c1
      exact covers_mono c1 (by omega)
    · change g.alongPos (T.horz r.level) r.final ≤ g.alongPos (T.horz r.level) r.first at e1
      rw [Int.min_eq_right e1, Int.max_eq_left e1, across_same (g := g) hrow] at hwb
      rw [hwb] at hmemw
      obtain ⟨c1, _, _⟩ := cover_run g (T.horz r.level) r.final r.first (T.width r.level) e1 hrow.symm h.wpos h.even
        x2 y2 x1 y1 n3 n4 n1 n2 _ hmemw hmem2 hmem1
      rw [← hs2, ← h.half2, ← hs1, ← h.half1] at c1
      have e2' : (centreLen g r.pts : Int) * T.width r.level =
          (g.alongPos (T.horz r.level) r.first - g.alongPos (T.horz r.level) r.final) * T.width r.level := by
        rw [e2]; rfl
      rw [← e2'] at c1
      exact covers_mono c1 (by omega)

/-- C96: shape of a patch: default width (rounded down to even), along the preferred direction of
the layer, starting at one end of the run; its length is the smallest multiple of the manufacturing
grid that brings the missing area. -/
theorem c96_patch_shape (g : Grid) (S : SeekTech) (T : PatchTech) (E : PatchEnv) (net : Nat) (q : PatchReq)
    (hw : 0 < T.width q.bp.z) (hm : 0 < T.mfg) :
    ∃ n left len, (n = q.bp ∧ left = q.bpLeft ∨ n = q.ep ∧ left = q.epLeft) ∧
      (patchMetal g S T E net q).metal =
        (let w := T.width q.bp.z / 2
         let o := g.pos n
         if T.horz q.bp.z then
           (if left then ⟨⟨o.x - len, o.y - w⟩, ⟨o.x, o.y + w⟩⟩ else ⟨⟨o.x, o.y - w⟩, ⟨o.x + len, o.y + w⟩⟩)
         else (if left then ⟨⟨o.x - w, o.y - len⟩, ⟨o.x + w, o.y⟩⟩ else ⟨⟨o.x - w, o.y⟩, ⟨o.x + w, o.y + len⟩⟩)) ∧
      (patchMetal g S T E net q).net = net ∧ (patchMetal g S T E net q).layer = n.z ∧
      q.gap ≤ len * T.width q.bp.z ∧ (len - T.mfg) * T.width q.bp.z < q.gap ∧ T.mfg ∣ len := by
  obtain ⟨h1, h2, h3⟩ := marLen_spec T q.gap (T.width q.bp.z) hw hm
  have hbox : ∀ n horz left len w, 0 < w → (patchWire g net n horz left len w).metal =
        (let w := w / 2
         let o := g.pos n
         if horz then
           (if left then ⟨⟨o.x - len, o.y - w⟩, ⟨o.x, o.y + w⟩⟩ else ⟨⟨o.x, o.y - w⟩, ⟨o.x + len, o.y + w⟩⟩)
         else (if left then ⟨⟨o.x - w, o.y - len⟩, ⟨o.x + w, o.y⟩⟩ else ⟨⟨o.x - w, o.y⟩, ⟨o.x + w, o.y + len⟩⟩)) := by
    intro n horz left len w hw
    unfold DPatch.metal patchWire Box.moved Grid.pos
    rw [Int.tdiv_eq_ediv_of_nonneg (by omega)]
    cases horz <;> cases left <;> simp <;> omega
  unfold patchMetal
  dsimp only
  split
  · exact ⟨_, _, _, Or.inl ⟨rfl, rfl⟩, hbox _ _ _ _ _ hw, rfl, rfl, h1, h2, h3⟩
  · exact ⟨_, _, _, Or.inr ⟨rfl, rfl⟩, hbox _ _ _ _ _ hw, rfl, rfl, h1, h2, h3⟩

end TR
