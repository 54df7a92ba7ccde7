import Verif.Matcher.Machine

/-!
# C100: matchers that end, and do not lead far away

Hill climbing has no bound on its iterations: it ends because a map of which finitely much is known gives finitely many scores.
For the same reason it does not run away: where nothing is known all scores are the same.
-/

set_option autoImplicit false
set_option linter.unusedSectionVars false

namespace Slam.Matcher
open Slam.Grid Slam.Rect Slam.Sensor Slam.Score Slam.ScanMatch Slam.Cells Slam.Drift
open Slam.Poses (Delta)

/-! ## Specification -/

/-- The pose is within `X` of the origin along each axis. -/
def PoseWithin (X : ℝ) (p : Poses.Pose ℝ) : Prop := |p.x| ≤ X ∧ |p.y| ≤ X

/-- The cell is within `U` of the origin along each axis. -/
def CellWithin (scale U : ℝ) (c : Coord) : Prop := scale * |(c.x : ℝ)| ≤ U ∧ scale * |(c.y : ℝ)| ≤ U

/-- Probabilities of a map of which only cells within `U` are known: finitely many values, and one and the same elsewhere. -/
structure Flat (scale U : ℝ) (prob : Point ℝ → Coord → ℝ) : Prop where
  finite : ∃ V : Finset ℝ, ∀ q c, prob q c ∈ V
  unknown : ∃ c0, ∀ q c, ¬ CellWithin scale U c → prob q c = c0

/-- The points of a scan: polar, with ranges up to `R`. -/
def Ranged (R : ℝ) (scan : List ScanPoint) : Prop := ∀ sp ∈ scan, ∃ r a o, sp = .polar r a o 1 ∧ 0 ≤ r ∧ r ≤ R

/-- **What a matcher `m` guarantees**, given with any bound on its iterations: called within `Y` of the origin, on a map known
within `U`, for a scan with ranges up to `R`, where `Y` is beyond everything from where known cells can be seen, it answers after
enough iterations (always the same), and its answer leads to a pose within `Y + b`. `flat`: only on maps with finitely many scores.
`ok Y`: its states; they are kept. -/
def Roams {C T : Type} (m : Nat → Machine C T) (imp : Point ℝ → C → Option ℝ) (flat : Prop) (ok : ℝ → T → Prop) (b : ℝ) : Prop :=
  (∀ Y Y' t, Y ≤ Y' → ok Y t → ok Y' t) ∧ (∃ rs : T → T, ∀ fuel, (m fuel).reset = rs ∧ ∀ Y t, ok Y t → ok Y (rs t)) ∧
  ∀ (v : View C) (prob : Point ℝ → Coord → ℝ) (U R Y : ℝ), Shows v imp prob → 0 < v.scale → (flat → Flat v.scale U prob) →
    U + v.scale + R ≤ Y → ∀ w, Spw.Ok w → ∀ t, ok Y t → ∀ scan, Ranged R scan → ∀ p, PoseWithin Y p →
    ∃ F w' t' delta s, (∀ fuel, F ≤ fuel → (m fuel).process v w t scan p = some (w', t', delta, s)) ∧
      PoseWithin (Y + b) (p.add delta) ∧ ok Y t'

/-- `q` is reached from `p` by steps of at most `τ` along each axis, each to a pose of a higher score. -/
inductive Ascends (score : Poses.Pose ℝ → Option ℝ) (τ : ℝ) : Poses.Pose ℝ → Poses.Pose ℝ → Prop
  | stay (p : Poses.Pose ℝ) : Ascends score τ p p
  | step {p q r : Poses.Pose ℝ} {a b : ℝ} (ha : score p = some a) (hb : score q = some b) (hab : a < b)
      (hx : |q.x - p.x| ≤ τ) (hy : |q.y - p.y| ≤ τ) (h : Ascends score τ q r) : Ascends score τ p r

/-! ## Ascending does not lead away -/

theorem PoseWithin.mono {X X' : ℝ} {p : Poses.Pose ℝ} (h : PoseWithin X p) (hX : X ≤ X') : PoseWithin X' p :=
  ⟨h.1.trans hX, h.2.trans hX⟩

/-- If all poses beyond `Y` have the same score, ascending from within `Y` ends within `Y` and one step. -/
theorem ascends_within {score : Poses.Pose ℝ → Option ℝ} {τ Y c0 : ℝ} (hτ : 0 ≤ τ)
    (hfar : ∀ q s, ¬ PoseWithin Y q → score q = some s → s = c0) {p q : Poses.Pose ℝ} (h : Ascends score τ p q)
    (hp : PoseWithin Y p ∨ (PoseWithin (Y + τ) p ∧ score p = some c0)) : PoseWithin (Y + τ) q := by
  induction h with
  | stay p =>
    rcases hp with h | h
    · exact h.mono (by linarith)
    · exact h.1
  | @step p q r a b ha hb hab hx hy _ ih =>
    refine ih ?_
    by_cases hq : PoseWithin Y q
    · exact .inl hq
    · right
      have hc := hfar q b hq hb
      refine ⟨?_, by rw [hb, hc]⟩
      rcases hp with h | h
      · constructor
        · have := abs_sub_abs_le_abs_sub q.x p.x
          linarith [h.1]
        · have := abs_sub_abs_le_abs_sub q.y p.y
          linarith [h.2]
      · rw [ha, Option.some.injEq] at h
        linarith [h.2]

/-- From beyond `Y` nothing known is seen: all scores are the same there. -/
theorem score_far {prob : Point ℝ → Coord → ℝ} {scale U R Y c0 : ℝ} (hs : 0 < scale)
    (hc : ∀ q c, ¬ CellWithin scale U c → prob q c = c0) (hY : U + scale + R ≤ Y) {pts : List ScanPoint} (hR : Ranged R pts)
    {ws : List ℝ} (hlen : ws.length = pts.length) {q : Poses.Pose ℝ} (hq : ¬ PoseWithin Y q) {s : ℝ}
    (h : meanScore prob scale ws pts q = some s) : s = c0 := by
  unfold meanScore at h
  by_cases h0 : ws.sum = 0
  · rw [if_pos h0] at h; cases h
  · rw [if_neg h0, Option.some.injEq] at h
    have hall : ∀ sp ∈ pts, prob (seenAt q sp) (worldToCell scale (seenAt q sp)) = c0 := by
      intro sp hsp
      refine hc _ _ fun hn => hq ?_
      obtain ⟨r, a, o, rfl, r0, r1⟩ := hR sp hsp
      have ex : (seenAt q (.polar r a o 1)).x - q.x = r * Real.cos (q.theta + a) := by
        rw [Real.cos_add]; simp only [seenAt, ScanPoint.x, ScanPoint.y]; ring
      have ey : (seenAt q (.polar r a o 1)).y - q.y = r * Real.sin (q.theta + a) := by
        rw [Real.sin_add]; simp only [seenAt, ScanPoint.x, ScanPoint.y]; ring
      have key : ∀ v u : ℝ, scale * |((⌊v / scale⌋ : Int) : ℝ)| ≤ U → |v - u| ≤ R → |u| ≤ Y := by
        intro v u hv hd
        have h1 := Int.floor_le (v / scale)
        have h2 := (Int.lt_floor_add_one (v / scale)).le
        rw [le_div_iff₀ hs] at h1
        rw [div_le_iff₀ hs] at h2
        generalize ((⌊v / scale⌋ : Int) : ℝ) = k at *
        have h3 : |scale * k| ≤ U := by rw [abs_mul, abs_of_pos hs]; exact hv
        rw [abs_le] at h3 hd ⊢
        constructor <;> nlinarith [h3.1, h3.2, hd.1, hd.2]
      refine ⟨key _ _ hn.1 ?_, key _ _ hn.2 ?_⟩
      · rw [ex, abs_mul, abs_of_nonneg r0]
        exact (mul_le_of_le_one_right r0 (Real.abs_cos_le_one _)).trans r1
      · rw [ey, abs_mul, abs_of_nonneg r0]
        exact (mul_le_of_le_one_right r0 (Real.abs_sin_le_one _)).trans r1
    rw [← h, List.map_congr_left hall, weightedMean]
    have hz : ∀ (l : List ScanPoint) (us : List ℝ), us.length = l.length →
        (List.zipWith (· * ·) (l.map fun _ => c0) us).sum = c0 * us.sum := by
      intro l
      induction l with
      | nil => intro us hu; rw [List.length_eq_zero_iff.1 hu]; simp
      | cons a l ih =>
        intro us hu
        cases us with
        | nil => simp at hu
        | cons u us =>
          simp only [List.map_cons, List.zipWith_cons_cons, List.sum_cons, ih us (by simpa using hu)]
          ring
    rw [hz pts ws hlen, mul_div_assoc, div_self h0, mul_one]

/-! ## Hill climbing -/

theorem sixNeighbours_close {b q : Poses.Pose ℝ} {d r : ℝ} (h : q ∈ sixNeighbours b d r) : |q.x - b.x| ≤ |d| ∧ |q.y - b.y| ≤ |d| := by
  simp only [sixNeighbours, List.mem_cons, List.not_mem_nil, or_false] at h
  rcases h with rfl | rfl | rfl | rfl | rfl | rfl <;> simp

theorem improve_mem (score : Poses.Pose ℝ → Option ℝ) (l : List (Poses.Pose ℝ)) : ∀ b p,
    improve score (b, p) l = (b, p) ∨ (improve score (b, p) l).1 ∈ l := by
  induction l with
  | nil => intro b p; exact .inl rfl
  | cons q l ih =>
    intro b p
    rw [improve_cons]
    by_cases hq : ltN p (score q) = true
    · have e : improve score (b, p) [q] = (q, score q) := by simp [improve, hq]
      rw [e]
      rcases ih q (score q) with h | h
      · rw [h]; right; simp
      · right; exact List.mem_cons_of_mem _ h
    · have e : improve score (b, p) [q] = (b, p) := by simp [improve, hq]
      rw [e]
      rcases ih b p with h | h
      · exact .inl h
      · right; exact List.mem_cons_of_mem _ h

theorem ltN_some {a b : Option ℝ} (h : ltN a b = true) : ∃ x y, a = some x ∧ b = some y ∧ x < y := by
  cases a with
  | none => simp [ltN] at h
  | some x =>
    cases b with
    | none => simp [ltN] at h
    | some y => exact ⟨x, y, rfl, rfl, by simpa [ltN] using h⟩

/-- One round of improvements, as a step or none. -/
theorem improve_ascends (score : Poses.Pose ℝ → Option ℝ) {τ : ℝ} (l : List (Poses.Pose ℝ)) (b : Poses.Pose ℝ)
    (hl : ∀ q ∈ l, |q.x - b.x| ≤ τ ∧ |q.y - b.y| ≤ τ) {q : Poses.Pose ℝ}
    (h : Ascends score τ (improve score (b, score b) l).1 q) :
    (improve score (b, score b) l).2 = score (improve score (b, score b) l).1 ∧ Ascends score τ b q := by
  rcases (improve_of_improves score b (score b) l).1 with e | ⟨e1, e2⟩
  · rw [e] at h ⊢; exact ⟨rfl, h⟩
  · refine ⟨e2, ?_⟩
    obtain ⟨x, y, hx, hy, hxy⟩ := ltN_some e1
    rcases improve_mem score l b (score b) with e | hm
    · rw [e] at h; exact h
    · exact .step hx (e2 ▸ hy) hxy (hl _ hm).1 (hl _ hm).2 h

theorem climb_ascends {score : Poses.Pose ℝ → Option ℝ} {τ : ℝ} {F : Nat} {d r : ℝ} {b q : Poses.Pose ℝ} {p s : Option ℝ}
    {tested : List (Poses.Pose ℝ)} (h : Climb score F d r b p tested q s) : p = score b → |d| ≤ τ → Ascends score τ b q := by
  induction h with
  | none d r b p => intro _ _; exact .stay b
  | success F d r b p rest b' p' hi hr ih =>
    intro hp hd
    subst hp
    have hn : ∀ q ∈ sixNeighbours b d r, |q.x - b.x| ≤ τ ∧ |q.y - b.y| ≤ τ := fun q hq =>
      ⟨(sixNeighbours_close hq).1.trans hd, (sixNeighbours_close hq).2.trans hd⟩
    exact (improve_ascends score _ b hn (ih (improve_ascends score _ b hn (.stay _)).1 hd)).2
  | failure F d r b p rest b' p' hi hr ih =>
    intro hp hd
    refine ih hp ?_
    rw [abs_div, abs_two]
    linarith [abs_nonneg d]
  | last d r b p b' p' hi hb =>
    intro hp hd
    subst hp
    have hn : ∀ q ∈ [(⟨b.x + d / 2, b.y, b.theta⟩ : Poses.Pose ℝ)], |q.x - b.x| ≤ τ ∧ |q.y - b.y| ≤ τ := by
      intro q hq
      rw [List.mem_singleton] at hq
      subst hq
      simp only [add_sub_cancel_left, sub_self, abs_zero, abs_div, abs_two]
      constructor <;> linarith [abs_nonneg d]
    have e : b' = (improve score (b, score b) [⟨b.x + d / 2, b.y, b.theta⟩]).1 := by rw [← hb]
    rw [e]
    exact (improve_ascends score _ b hn (.stay _)).2

section
variable {C T S : Type} {cfg : Cfg C}

/-- More iterations do not change an answer. -/
theorem processScan_more {E : Enumerator ℝ S} {score : Poses.Pose ℝ → Option ℝ} {f F : Nat} (hF : f ≤ F) {e : S}
    {p : Poses.Pose ℝ} {a : S × Delta ℝ × Option ℝ × List (Event ℝ)} (h : processScan E score f e p = some a) :
    processScan E score F e p = some a := by
  rw [processScan_iff] at h ⊢
  obtain ⟨ts, e', b', p', h1, h2, h3⟩ := h
  exact ⟨ts, e', b', p', by omega, h2, h3⟩

theorem Ranged.factor {R : ℝ} {scan : List ScanPoint} (h : Ranged R scan) : ∀ p ∈ scan, p.factor = 1 := by
  intro p hp
  obtain ⟨r, a, o, rfl, -⟩ := h p hp
  rfl

theorem Ranged.usable {R : ℝ} {scan : List ScanPoint} (h : Ranged R scan) (c : Score.Cfg) (scale : ℝ) (has : Coord → Bool)
    (p : Poses.Pose ℝ) : Ranged R (usablePoints c scale has p scan) := fun sp hsp => h sp (usable_subset _ _ _ _ _ sp hsp)

theorem add_sub_self (p q : Poses.Pose ℝ) : p.add (q.sub p) = q := by
  ext <;> simp [Poses.Pose.add, Poses.Pose.sub]

/-- **Hill climbing ends and stays near (C100)**: within one (first) step of where it started or of where known cells can be seen. -/
theorem hill_climbing_roams (hf : 0 < cfg.cellFuel) (F : Nat) (d r : ℝ) :
    Roams (fun fuel => enumMachine cfg (hillClimbing F d r) fuel) cfg.imp True (fun _ _ => True) |d| := by
  refine ⟨fun _ _ _ _ _ => trivial, ⟨_, fun _ => ⟨rfl, fun _ _ _ => trivial⟩⟩, ?_⟩
  intro v prob U R Y hv hs hflat hY w hw t _ scan hR p hp
  obtain ⟨⟨V, hV⟩, c0, hc0⟩ := hflat trivial
  obtain ⟨fuel, w', e', best, s, events, ws, tested, h1, h2, h3⟩ := hill_climbing_ends_on_map cfg F d r v prob hv V hV hs hf w hw
    scan hR.factor p t
  obtain ⟨w1, ws1, hws1, heq⟩ := matcher_on_map cfg (hillClimbing F d r) v prob hv hs hf w hw scan hR.factor p
  refine ⟨fuel, w', e', best.sub p, s, ?_, ?_, trivial⟩
  · intro fuel' hle
    have h4 := h1
    rw [heq, Option.map_eq_some_iff] at h4
    obtain ⟨o, h4, h5⟩ := h4
    simp only [enumMachine, heq, processScan_more hle h4, Option.map_some, h5]
  · rw [add_sub_self]
    exact ascends_within (abs_nonneg d) (fun q s hq => score_far hs hc0 hY (hR.usable _ _ _ _) h2.len hq)
      (climb_ascends h3 rfl le_rfl) (.inl hp)

/-! ## The fixed hill climbing -/

theorem shiftPose_close (p : Poses.Pose ℝ) (a l : ℝ) (action : Nat) :
    |(shiftPose p a l action).x - p.x| ≤ (if action % 3 = 2 then 0 else |l|) ∧
    |(shiftPose p a l action).y - p.y| ≤ (if action % 3 = 2 then 0 else |l|) := by
  have h3 : action % 3 < 3 := Nat.mod_lt _ (by norm_num)
  have hv : ∀ x : ℝ, |(if action % 2 = 0 then (1 : ℝ) else -1) * x| = |x| := by
    intro x
    by_cases h : action % 2 = 0 <;> simp [h]
  unfold shiftPose
  rcases (show action % 3 = 0 ∨ action % 3 = 1 ∨ action % 3 = 2 by omega) with h | h | h
  · simp only [h, add_sub_cancel_left, hv, sub_self, abs_zero]
    norm_num
  · simp only [h, add_sub_cancel_left, hv, sub_self, abs_zero]
    norm_num
  · simp [h]

theorem lineSearch_close (score : Poses.Pose ℝ → Option ℝ) (cur : Poses.Pose ℝ) (best : Option ℝ) (action : Nat) (dd : ℝ) (k : Nat)
    {rp : Poses.Pose ℝ} {rs : Option ℝ} (h : lineSearch score cur best action dd k = some (rp, rs)) :
    |rp.x - cur.x| ≤ (if action % 3 = 2 then 0 else 2 ^ k * |dd|) ∧ |rp.y - cur.y| ≤ (if action % 3 = 2 then 0 else 2 ^ k * |dd|) := by
  induction k with
  | zero => simp [lineSearch] at h
  | succ k ih =>
    simp only [lineSearch] at h
    by_cases h1 : dd < 2 ^ (k + 1) * dd
    · rw [if_pos h1] at h
      by_cases h2 : ltN best (score (shiftPose cur (2 ^ (k + 1) * dd) (2 ^ (k + 1) * dd) action)) = true
      · rw [if_pos h2, Option.some.injEq, Prod.mk.injEq] at h
        rw [← h.1]
        have := shiftPose_close cur (2 ^ (k + 1) * dd) (2 ^ (k + 1) * dd) action
        rwa [abs_mul, abs_of_nonneg (by positivity : (0 : ℝ) ≤ 2 ^ (k + 1))] at this
      · rw [if_neg h2] at h
        obtain ⟨i1, i2⟩ := ih h
        have hle : (if action % 3 = 2 then (0 : ℝ) else 2 ^ k * |dd|) ≤ (if action % 3 = 2 then 0 else 2 ^ (k + 1) * |dd|) := by
          by_cases ha : action % 3 = 2
          · rw [if_pos ha, if_pos ha]
          · rw [if_neg ha, if_neg ha, pow_succ]
            have : 0 ≤ 2 ^ k * |dd| := by positivity
            linarith
        exact ⟨i1.trans hle, i2.trans hle⟩
    · rw [if_neg h1] at h; cases h

theorem fixedLoop_ascends (score : Poses.Pose ℝ → Option ℝ) (dt dO : ℝ) (fuel : Nat) : ∀ (m : BitVec 32) (best q : Poses.Pose ℝ)
    (p : Option ℝ) (m' : BitVec 32), fixedLoop score dt dO fuel m best (score best) = some (q, p, m') →
      Ascends score (16 * |dt|) best q := by
  induction fuel with
  | zero => intro m best q p m' h; simp [fixedLoop] at h
  | succ fuel ih =>
    intro m best q p m' h
    simp only [fixedLoop] at h
    by_cases hm : (0 : BitVec 32) < m
    · rw [if_pos hm] at h
      have hgood := chooseDirection_spec score dt dO best (score best)
      generalize chooseDirection score dt dO best (score best) = d at h hgood
      have hdd : (if d.action % 3 = 2 then (0 : ℝ) else 2 ^ 4 * |d.dd|) ≤ 16 * |dt| := by
        by_cases ha : d.action % 3 = 2
        · rw [if_pos ha]; positivity
        · rw [if_neg ha]
          rcases hgood with ⟨-, e⟩ | ⟨-, -, -, -, -, e⟩
          · rw [e]; simp
          · rw [e, if_neg ha]; norm_num
      cases hl : lineSearch score best (score best) d.action d.dd 4 with
      | some r =>
        obtain ⟨rp, rs⟩ := r
        obtain ⟨h1, h2⟩ := lineSearch_spec _ _ _ _ _ _ _ _ hl
        obtain ⟨c1, c2⟩ := lineSearch_close _ _ _ _ _ _ hl
        rw [hl] at h
        subst h1
        obtain ⟨x, y, hx, hy, hxy⟩ := ltN_some h2
        exact .step hx hy hxy (c1.trans hdd) (c2.trans hdd) (ih _ _ _ _ _ h)
      | none =>
        rw [hl] at h
        simp only at h
        by_cases h0 : 0 ≤ d.diff
        · rw [if_pos h0, Option.some.injEq, Prod.mk.injEq] at h
          rw [← h.1]
          exact .stay _
        · rw [if_neg h0] at h
          rcases hgood with ⟨e1, -⟩ | ⟨b, s, hb, hs, e1, e2⟩
          · exact absurd (by rw [e1]; exact zero_le_one) h0
          · have hsp : shiftPose best d.dd d.dd d.action = shiftPose best dO dt d.action := by
              rw [e2]; exact shiftPose_congr best dO dt d.action
            have hscore : (score best).map (fun p => p - d.diff) = score (shiftPose best d.dd d.dd d.action) := by
              rw [hsp, hs, hb, e1]; simp
            rw [hscore] at h
            have hc := shiftPose_close best d.dd d.dd d.action
            have hle : (if d.action % 3 = 2 then (0 : ℝ) else |d.dd|) ≤ 16 * |dt| := by
              refine le_trans ?_ hdd
              by_cases ha : d.action % 3 = 2
              · rw [if_pos ha, if_pos ha]
              · rw [if_neg ha, if_neg ha]; norm_num; linarith [abs_nonneg d.dd]
            exact .step hb (by rw [hsp]; exact hs) (by rw [e1] at h0; linarith [not_le.1 h0]) (hc.1.trans hle) (hc.2.trans hle)
              (ih _ _ _ _ _ h)
    · rw [if_neg hm, Option.some.injEq, Prod.mk.injEq] at h
      rw [← h.1]
      exact .stay _

/-- **The fixed hill climbing ends and stays near (C100)**: within 16 centimetres, its longest step. -/
theorem fixed_roams (hf : 0 < cfg.cellFuel) :
    Roams (fun fuel => fixedMachine cfg fuel) cfg.imp True (fun _ _ => True) (16 / 100) := by
  refine ⟨fun _ _ _ _ _ => trivial, ⟨_, fun _ => ⟨rfl, fun _ _ _ => trivial⟩⟩, ?_⟩
  intro v prob U R Y hv hs hflat hY w hw t _ scan hR p hp
  obtain ⟨⟨V, hV⟩, c0, hc0⟩ := hflat trivial
  obtain ⟨fuel, r, h1⟩ := fixed_ends_on_map (cfg := cfg) v prob hv V hV hs hf w hw scan hR.factor p t
  obtain ⟨w', ws, hws, heq⟩ := fixed_on_map cfg v prob hv hs hf w hw scan hR.factor p
  refine ⟨fuel, r.1, r.2.1, r.2.2.1, r.2.2.2, h1, ?_, trivial⟩
  have h2 := h1 fuel le_rfl
  rw [heq, Option.map_eq_some_iff] at h2
  obtain ⟨o, h2, rfl⟩ := h2
  simp only [fixedProcess, Option.map_eq_some_iff] at h2
  obtain ⟨⟨q, s, m'⟩, h2, rfl⟩ := h2
  simp only
  rw [add_sub_self]
  have := ascends_within (by norm_num) (fun q s hq => score_far hs hc0 hY (hR.usable _ _ _ _) hws.len hq)
      (fixedLoop_ascends _ _ _ _ _ _ _ _ _ h2) (.inl hp)
  refine this.mono ?_
  rw [abs_of_pos (by norm_num : (0 : ℝ) < 1 / 100)]
  linarith

/-! ## Brute force -/

/-- The grid of a brute force search reaches at most `b` along each axis. -/
def GridWithin (P : BFParams ℝ) (b : ℝ) : Prop := ∀ o ∈ searchGrid P, |o.1| ≤ b ∧ |o.2.1| ≤ b

/-- **Brute force ends and stays near (C100)**: its base pose is kept; the robot is on the grid around it, or where it was. -/
theorem brute_force_roams (hf : 0 < cfg.cellFuel) (P : BFParams ℝ) (hP : P.Ok) {b : ℝ} (hb : 0 ≤ b) (hg : GridWithin P b) :
    Roams (fun fuel => enumMachine cfg (bruteForce P) fuel) cfg.imp False (fun Y e => ∀ p, e.base = some p → PoseWithin Y p) b := by
  refine ⟨fun Y Y' t hY h p e => (h p e).mono hY, ⟨_, fun _ => ⟨rfl, fun Y t h => h⟩⟩, ?_⟩
  intro v prob U R Y hv hs _ hY w hw t ht scan hR p hp
  obtain ⟨w', ws, hws, heq⟩ := matcher_on_map cfg (bruteForce P) v prob hv hs hf w hw scan hR.factor p
  generalize hsc : meanScore prob v.scale ws (usablePoints cfg.filter v.scale v.hasCell p scan) = score at heq
  obtain ⟨eN, delta, pr, fuel, b1, b2⟩ := brute_force_run P hP score t p
  have hbase : PoseWithin Y (t.base.getD p) := by
    cases h : t.base with
    | none => exact hp
    | some q => exact ht q h
  refine ⟨fuel, w', eN, delta, pr, ?_, ?_, ?_⟩
  · intro fuel' hle
    simp only [enumMachine, heq, processScan_more hle b2, Option.map_some]
  · cases h0 : score p with
    | none =>
      obtain ⟨-, hd⟩ := enumeration_undefined_initial _ _ _ _ _ h0 _ _ _ _ b2
      rw [hd]
      have : p.add Poses.Pose.zero = p := by ext <;> simp [Poses.Pose.add, Poses.Pose.zero]
      rw [this]
      exact hp.mono (by linarith)
    | some s0 =>
      obtain ⟨q, s, -, h4, -, -, pre, post, h5, -⟩ := enumeration_returns_first_maximum _ _ _ _ _ _ h0 _ _ _ _ b2
      rw [h4]
      have hm : q ∈ testedPoses (.start p :: .test p (score p) :: .update p (score p) ::
        (announce score (score p) ((searchGrid P).map (around (t.base.getD p))) ++ [.finish delta pr])) := by
        rw [h5]; simp
      have hta := testedPoses_announce score ((searchGrid P).map (around (t.base.getD p))) (score p) [.finish delta pr]
      have hm' : q ∈ p :: (searchGrid P).map (around (t.base.getD p)) := by
        simp only [testedPoses] at hm hta
        simp only [List.filterMap_cons, hta] at hm
        simpa using hm
      rcases List.mem_cons.1 hm' with rfl | hm'
      · exact hp.mono (by linarith)
      · obtain ⟨o, ho, rfl⟩ := List.mem_map.1 hm'
        obtain ⟨g1, g2⟩ := hg o ho
        exact ⟨(abs_add_le _ _).trans (by linarith [hbase.1]), (abs_add_le _ _).trans (by linarith [hbase.2])⟩
  · intro q hq
    rw [b1, Option.some.injEq] at hq
    rw [← hq]
    exact hbase

/-- How far the grid reaches. -/
theorem grid_within (P : BFParams ℝ) (hP : P.Ok) :
    GridWithin P (max (max (max |P.fromX| |P.toX|) (max |P.fromY| |P.toY|)) 0 + max P.stepX P.stepY) := by
  have hprog : ∀ (a z s : ℝ), 0 < s → a ≤ z → ∀ x ∈ progression a s ⌈(z - a) / s⌉₊, |x| ≤ max |a| |z| + s := by
    intro a z s hs haz x hx
    simp only [progression, List.mem_map, List.mem_range] at hx
    obtain ⟨i, hi, rfl⟩ := hx
    have h1 : (i : ℝ) ≤ ⌈(z - a) / s⌉₊ := by exact_mod_cast Nat.lt_succ_iff.1 hi
    have h2 : ((⌈(z - a) / s⌉₊ : Nat) : ℝ) < (z - a) / s + 1 := Nat.ceil_lt_add_one (div_nonneg (by linarith) hs.le)
    have h3 : (i : ℝ) * s ≤ z - a + s := by
      have := mul_le_mul_of_nonneg_right (h1.trans h2.le) hs.le
      rw [add_mul, div_mul_cancel₀ _ hs.ne', one_mul] at this
      exact this
    have h4 : 0 ≤ (i : ℝ) * s := by positivity
    rw [abs_le]
    constructor
    · have := neg_abs_le a
      have := le_max_left |a| |z|
      linarith
    · have := le_abs_self z
      have := le_max_right |a| |z|
      linarith
  intro o ho
  simp only [searchGrid, List.mem_flatMap, List.mem_map] at ho
  obtain ⟨t, -, y, hy, x, hx, rfl⟩ := ho
  have e1 := hprog _ _ _ hP.sx hP.x x hx
  have e2 := hprog _ _ _ hP.sy hP.y y hy
  constructor
  · refine e1.trans (add_le_add (le_max_of_le_left (le_max_left _ _)) (le_max_left _ _))
  · refine e2.trans (add_le_add (le_max_of_le_left (le_max_right _ _)) (le_max_right _ _))

/-! ## The other matchers -/

theorem idle_roams : Roams (fun _ => idleMachine C) cfg.imp False (fun _ _ => True) 0 := by
  refine ⟨fun _ _ _ _ _ => trivial, ⟨_, fun _ => ⟨rfl, fun _ _ _ => trivial⟩⟩, ?_⟩
  intro v prob U R Y _ _ _ _ w _ t _ scan _ p hp
  refine ⟨0, w, t, ⟨0, 0, 0⟩, some 1, fun _ _ => rfl, ?_, trivial⟩
  have : p.add ⟨0, 0, 0⟩ = p := by ext <;> simp [Poses.Pose.add]
  rw [this, add_zero]
  exact hp

theorem monte_carlo_roams (hf : 0 < cfg.cellFuel) (maxFailed maxPoses : Nat) (trans rot : ℝ) (sample : Nat → ℝ → ℝ → Delta ℝ)
    (b : ℝ) (hb : 0 ≤ b) (hsam : ∀ n x y, WithinShift b (sample n x y)) :
    Roams (fun fuel => enumMachine cfg (monteCarlo maxFailed maxPoses trans rot sample) fuel) cfg.imp False (fun _ _ => True)
      (maxPoses * b) := by
  refine ⟨fun _ _ _ _ _ => trivial, ⟨_, fun _ => ⟨rfl, fun _ _ _ => trivial⟩⟩, ?_⟩
  intro v prob U R Y hv hs _ _ w hw t _ scan hR p hp
  obtain ⟨w1, ws1, -, heq⟩ := matcher_on_map cfg (monteCarlo maxFailed maxPoses trans rot sample) v prob hv hs hf w hw scan hR.factor p
  obtain ⟨w', e', delta, s, events, h1, -, h3⟩ := monte_carlo_on_map cfg maxFailed maxPoses trans rot sample v prob hv hs hf w hw
    scan hR.factor p t
  obtain ⟨b1, b2, -⟩ := h3 b hb hsam
  refine ⟨maxPoses + 1, w', e', delta, s, ?_, ?_, trivial⟩
  · intro fuel hle
    have h4 := h1
    rw [heq, Option.map_eq_some_iff] at h4
    obtain ⟨o, h4, h5⟩ := h4
    simp only [enumMachine, heq, processScan_more hle h4, Option.map_some, h5]
  · exact ⟨(abs_add_le _ _).trans (by linarith [hp.1]), (abs_add_le _ _).trans (by linarith [hp.2])⟩

theorem loopP_more (E : Enumerator ℝ S) (score : Poses.Pose ℝ → Option (Option ℝ)) (f : Nat) : ∀ (f' : Nat), f ≤ f' →
    ∀ r r', loopP E score f r = some r' → loopP E score f' r = some r' := by
  induction f with
  | zero => intro f' _ r r' h; simp [loopP] at h
  | succ f ih =>
    intro f' hle r r' h
    obtain ⟨g, rfl⟩ : ∃ g, f' = g + 1 := ⟨f' - 1, by omega⟩
    unfold loopP at h ⊢
    by_cases hn : E.hasNext r.enum = true
    · rw [if_pos hn] at h ⊢
      simp only [Option.bind_eq_some_iff] at h ⊢
      obtain ⟨p, h1, h2⟩ := h
      refine ⟨p, h1, ?_⟩
      by_cases hl : ltN r.prob p = true
      · rw [if_pos hl] at h2 ⊢
        exact ih g (by omega) _ _ h2
      · rw [if_neg hl] at h2 ⊢
        exact ih g (by omega) _ _ h2
    · rw [if_neg hn] at h ⊢
      exact h

theorem detectP_more {f f' : Nat} (hle : f ≤ f') (score : List ScanPoint → Poses.Pose ℝ → Option (Option ℝ)) (scan : List ScanPoint)
    (init : Poses.Pose ℝ) (sm : Delta ℝ × Option ℝ) {r : Delta ℝ × Option ℝ} (h : detectP f score scan init sm = some r) :
    detectP f' score scan init sm = some r := by
  classical
  unfold detectP at h ⊢
  simp only [Option.bind_eq_some_iff] at h ⊢
  obtain ⟨a, h1, b, h2, c, h3, h4⟩ := h
  refine ⟨a, h1, b, h2, c, h3, ?_⟩
  by_cases hl : (c : ℝ) < 4 / 10 * (scan.length : ℝ)
  · rw [if_pos hl] at h4 ⊢
    exact h4
  · rw [if_neg hl] at h4 ⊢
    simp only [Option.bind_eq_some_iff] at h4 ⊢
    obtain ⟨d, h5, e, h6, g, h7, h8⟩ := h4
    exact ⟨d, h5, e, h6, g, loopP_more _ _ f f' hle _ _ h7, h8⟩

/-- The drift detector around a matcher leads at most 25 centimetres further. -/
theorem drift_roams (hf : 0 < cfg.cellFuel) {m : Nat → Machine C T} {flat : Prop} {ok : ℝ → T → Prop} {b : ℝ}
    (hk : ∀ fuel, (m fuel).Keeps cfg.imp) (h : Roams m cfg.imp flat ok b) :
    Roams (fun fuel => driftMachine cfg fuel (m fuel)) cfg.imp flat ok (b + 1 / 4) := by
  refine ⟨h.1, h.2.1, ?_⟩
  intro v prob U R Y hv hs hflat hY w hw t ht scan hR p hp
  obtain ⟨F, w1, t1, d1, s1, h1, h2, h3⟩ := h.2.2 v prob U R Y hv hs hflat hY w hw t ht scan hR p hp
  obtain ⟨w2, ws, k, wl, r, g1, -, -, -, -, -, -, g2⟩ := drift_on_map cfg v prob hv hs hf (m (max F 7)) hR.factor (sm := (d1, s1))
    (h1 _ (le_max_left F 7)) (hk _ v prob hv hs w hw t scan p _ _ _ _ (h1 _ (le_max_left F 7))) (max F 7) (le_max_right F 7)
  refine ⟨max F 7, w2, t1, r.1, r.2, ?_, ?_, h3⟩
  · intro fuel hle
    have hF : F ≤ fuel := (le_max_left _ _).trans hle
    simp only [driftMachine, h1 _ hF, h1 _ (le_max_left F 7), Option.bind_some, Option.bind_eq_some_iff, Option.map_eq_some_iff] at g1 ⊢
    obtain ⟨f, g3, d, g4, g5⟩ := g1
    exact ⟨f, g3, d, detectP_more hle _ _ _ _ g4, g5⟩
  · simp only at g2
    have hx : |r.1.x - d1.x| ≤ 1 / 4 := abs_le_of_sq_le_sq (by nlinarith [sq_nonneg (r.1.y - d1.y)]) (by norm_num)
    have hy : |r.1.y - d1.y| ≤ 1 / 4 := abs_le_of_sq_le_sq (by nlinarith [sq_nonneg (r.1.x - d1.x)]) (by norm_num)
    have e1 : (p.add r.1).x = (p.add d1).x + (r.1.x - d1.x) := by simp only [Poses.Pose.add]; ring
    have e2 : (p.add r.1).y = (p.add d1).y + (r.1.y - d1.y) := by simp only [Poses.Pose.add]; ring
    unfold PoseWithin
    rw [e1, e2]
    exact ⟨(abs_add_le _ _).trans (by linarith [h2.1]), (abs_add_le _ _).trans (by linarith [h2.2])⟩

end

end Slam.Matcher
