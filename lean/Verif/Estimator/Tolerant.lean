import Verif.Estimator.Area
import Verif.Rect.Props

/-!
# The estimator with the comparisons of the code (C49, C62)

The theorems of `Props` and `Area` are about exact comparisons. Here: the code's tolerant comparisons decide the same
whenever the numbers they are applied to are equal or farther apart than the tolerance, so that the same theorems hold
of the code.
-/

set_option autoImplicit false
set_option linter.unusedSectionVars false

namespace Slam.Estimator
open Slam.Grid Slam.Rect Slam.Cells

variable {K : Type*} [Field K] [LinearOrder K] [IsStrictOrderedRing K]

/-! ## Specification: the numbers that are compared -/

/-- Abscissa of the point with ordinate `y` on the line through `p` with direction `d`. -/
def atHeight (p d : Point K) (y : K) : K := p.x + (y - p.y) / d.y * d.x

/-- Ordinate of the point with abscissa `x` on the line through `p` with direction `d`. -/
def atAbscissa (p d : Point K) (x : K) : K := p.y + (x - p.x) / d.x * d.y

/-- The direction of the beam. -/
def alongDir (b : Seg K) : Point K := ⟨b.fin.x - b.beg.x, b.fin.y - b.beg.y⟩

/-- The direction perpendicular to the beam. -/
def acrossDir (b : Seg K) : Point K := ⟨b.beg.y - b.fin.y, b.fin.x - b.beg.x⟩

/-- Abscissas of a beam and a cell: of the ends, of the vertical edges, and of the points where the lines of the beam
and of its perpendicular through the end meet the lines of the horizontal edges. -/
def xsOf (b : Seg K) (c : Bounds K) : List K :=
  [b.beg.x, b.fin.x, c.left, c.right, atHeight b.beg (alongDir b) c.top, atHeight b.beg (alongDir b) c.bot,
    atHeight b.fin (acrossDir b) c.top, atHeight b.fin (acrossDir b) c.bot]

/-- Ordinates, likewise. -/
def ysOf (b : Seg K) (c : Bounds K) : List K :=
  [b.beg.y, b.fin.y, c.bot, c.top, atAbscissa b.beg (alongDir b) c.left, atAbscissa b.beg (alongDir b) c.right,
    atAbscissa b.fin (acrossDir b) c.left, atAbscissa b.fin (acrossDir b) c.right]

/-- A beam is clear of coincidences within the tolerance: any two abscissas and any two ordinates are equal or farther
apart than the tolerance, and so are the extents of the beam and zero. -/
def Clear (b : Seg K) (c : Bounds K) : Prop :=
  (∀ x ∈ xsOf b c, ∀ x' ∈ xsOf b c, Separated x x') ∧ (∀ y ∈ ysOf b c, ∀ y' ∈ ysOf b c, Separated y y') ∧
    Separated (b.fin.x - b.beg.x) 0 ∧ Separated (b.fin.y - b.beg.y) 0 ∧ Separated (b.beg.y - b.fin.y) 0

/-! ## Proofs -/

/-- A comparison that decides like the exact one on some numbers. -/
structure Fits (C : Cmp K) (xs : List K) : Prop where
  eq : ∀ a ∈ xs, ∀ b ∈ xs, C.eq a b = decide (a = b)
  le : ∀ a ∈ xs, ∀ b ∈ xs, C.le a b = decide (a ≤ b)

theorem areEqual_separated (a b : K) (h : Separated a b) : areEqual a b = decide (a = b) := by
  unfold areEqual
  rcases h with rfl | h
  · have : (0 : K) ≤ 1 / 10 ^ 7 * max 1 (max |a| |a|) :=
      mul_nonneg (by positivity) (le_trans zero_le_one (le_max_left _ _))
    simp only [sub_self, abs_zero, this, decide_true]
  · have h1 : ¬ (|a - b| ≤ 1 / 10 ^ 7 * max 1 (max |a| |b|)) := not_le.2 h
    have h2 : a ≠ b := by
      rintro rfl
      apply h1
      have : (0 : K) ≤ 1 / 10 ^ 7 * max 1 (max |a| |a|) :=
        mul_nonneg (by positivity) (le_trans zero_le_one (le_max_left _ _))
      simpa only [sub_self, abs_zero] using this
    simp only [h1, h2]

theorem codeCmp_fits (xs : List K) (h : ∀ x ∈ xs, ∀ x' ∈ xs, Separated x x') : Fits codeCmp xs :=
  ⟨fun a ha b hb => areEqual_separated a b (h a ha b hb), fun a ha b hb => by
    have := lessOrEqual_separated a b (h a ha b hb)
    simpa [codeCmp, exactLe] using this⟩

theorem exactCmp_fits (xs : List K) : Fits exactCmp xs := ⟨fun _ _ _ _ => rfl, fun _ _ _ _ => rfl⟩

variable {C : Cmp K} {X Y : List K}

theorem isHoriz_fits (hY : Fits C Y) (s : Seg K) (h1 : s.beg.y ∈ Y) (h2 : s.fin.y ∈ Y) :
    s.isHoriz C = s.isHoriz exactCmp := hY.eq _ h1 _ h2

theorem isVert_fits (hX : Fits C X) (s : Seg K) (h1 : s.beg.x ∈ X) (h2 : s.fin.x ∈ X) :
    s.isVert C = s.isVert exactCmp := hX.eq _ h1 _ h2

/-- A segment with both ends among the numbers. -/
def SegIn (X Y : List K) (s : Seg K) : Prop := (s.beg.x ∈ X ∧ s.fin.x ∈ X) ∧ (s.beg.y ∈ Y ∧ s.fin.y ∈ Y)

/-- A cell with its edges among the numbers. -/
def CellIn (X Y : List K) (c : Bounds K) : Prop := (c.left ∈ X ∧ c.right ∈ X) ∧ (c.bot ∈ Y ∧ c.top ∈ Y)

theorem contains_fits (hX : Fits C X) (hY : Fits C Y) (s : Seg K) (hs : SegIn X Y s) (p : Point K) (h1 : p.x ∈ X)
    (h2 : p.y ∈ Y) : s.contains C p = s.contains exactCmp p := by
  unfold Seg.contains
  rw [isHoriz_fits hY s hs.2.1 hs.2.2, isVert_fits hX s hs.1.1 hs.1.2, hY.eq _ h2 _ hs.2.1, hX.eq _ h1 _ hs.1.1]
  simp only [areOrdered]
  rw [hX.le _ hs.1.1 _ h1, hX.le _ h1 _ hs.1.2, hY.le _ hs.2.1 _ h2, hY.le _ h2 _ hs.2.2]
  rfl

theorem containsInters_fits (hX : Fits C X) (hY : Fits C Y) (s : Seg K) (hs : SegIn X Y s) (p : Point K) (h1 : p.x ∈ X)
    (h2 : p.y ∈ Y) : s.containsInters C p = s.containsInters exactCmp p := by
  unfold Seg.containsInters areOrdered
  rw [hX.le _ hs.1.1 _ h1, hX.le _ h1 _ hs.1.2, hX.le _ hs.1.2 _ h1, hX.le _ h1 _ hs.1.1,
    hY.le _ hs.2.1 _ h2, hY.le _ h2 _ hs.2.2, hY.le _ hs.2.2 _ h2, hY.le _ h2 _ hs.2.1]
  rfl

theorem edges_in (c : Bounds K) (hc : CellIn X Y c) :
    SegIn X Y (botEdge c) ∧ SegIn X Y (topEdge c) ∧ SegIn X Y (leftEdge c) ∧ SegIn X Y (rightEdge c) := by
  obtain ⟨⟨h1, h2⟩, h3, h4⟩ := hc
  exact ⟨⟨⟨h1, h2⟩, h3, h3⟩, ⟨⟨h1, h2⟩, h4, h4⟩, ⟨⟨h1, h1⟩, h3, h4⟩, ⟨⟨h2, h2⟩, h3, h4⟩⟩

theorem onSome_fits (hX : Fits C X) (hY : Fits C Y) (p : Point K) (h1 : p.x ∈ X) (h2 : p.y ∈ Y) (es : List (Seg K))
    (he : ∀ e ∈ es, SegIn X Y e) : onSome C p es = onSome exactCmp p es := by
  induction es with
  | nil => rfl
  | cons e es ih =>
    simp only [onSome]
    rw [contains_fits hX hY e (he e (by simp)) p h1 h2, ih fun e h => he e (by simp [h])]

theorem onEdge_fits (hX : Fits C X) (hY : Fits C Y) (c : Bounds K) (hc : CellIn X Y c) (p : Point K) (h1 : p.x ∈ X)
    (h2 : p.y ∈ Y) : onEdge C c p = onEdge exactCmp c p := by
  obtain ⟨e1, e2, e3, e4⟩ := edges_in c hc
  unfold onEdge
  apply onSome_fits hX hY p h1 h2
  intro e he
  simp only [List.mem_cons, List.not_mem_nil, or_false] at he
  rcases he with rfl | rfl | rfl | rfl <;> assumption

theorem hasOnEdgeLine_fits (hX : Fits C X) (hY : Fits C Y) (c : Bounds K) (hc : CellIn X Y c) (s : Seg K)
    (hs : SegIn X Y s) : hasOnEdgeLine C c s = hasOnEdgeLine exactCmp c s := by
  unfold hasOnEdgeLine
  rw [isHoriz_fits hY s hs.2.1 hs.2.2, isVert_fits hX s hs.1.1 hs.1.2, hX.eq _ hs.1.1 _ hc.1.1, hX.eq _ hs.1.1 _ hc.1.2,
    hY.eq _ hs.2.1 _ hc.2.1, hY.eq _ hs.2.1 _ hc.2.2]
  rfl

theorem isInside_fits (hX : Fits C X) (hY : Fits C Y) (c : Bounds K) (hc : CellIn X Y c) (s : Seg K)
    (hs : SegIn X Y s) : isInside C s c = isInside exactCmp s c := by
  unfold isInside
  rw [onEdge_fits hX hY c hc _ hs.1.1 hs.2.1, onEdge_fits hX hY c hc _ hs.1.2 hs.2.2]
  have h1 : ∀ x ∈ X, ∀ y ∈ Y, contains C.le c x y = contains exactCmp.le c x y := by
    intro x hx y hy
    unfold contains areOrdered
    rw [hX.le _ hc.1.1 _ hx, hX.le _ hx _ hc.1.2, hY.le _ hc.2.1 _ hy, hY.le _ hy _ hc.2.2]
    rfl
  rw [h1 _ hs.1.1 _ hs.2.1, h1 _ hs.1.2 _ hs.2.2]

/-- Intersections among the numbers. -/
def AllIn (X Y : List K) (l : List (Inter K)) : Prop := ∀ i ∈ l, i.pt.x ∈ X ∧ i.pt.y ∈ Y

theorem ptEq_fits (hX : Fits C X) (hY : Fits C Y) (a b : Point K) (ha : a.x ∈ X ∧ a.y ∈ Y) (hb : b.x ∈ X ∧ b.y ∈ Y) :
    ptEq C a b = ptEq exactCmp a b := by
  unfold ptEq
  rw [hX.eq _ ha.1 _ hb.1, hY.eq _ ha.2 _ hb.2]
  rfl

theorem uniqueFrom_fits (hX : Fits C X) (hY : Fits C Y) (l : List (Inter K)) (last : Inter K)
    (hlast : last.pt.x ∈ X ∧ last.pt.y ∈ Y) (hl : AllIn X Y l) :
    uniqueFrom C last l = uniqueFrom exactCmp last l := by
  induction l generalizing last with
  | nil => rfl
  | cons i l ih =>
    have hi := hl i (by simp)
    have hl' : AllIn X Y l := fun j hj => hl j (by simp [hj])
    simp only [uniqueFrom]
    rw [ptEq_fits hX hY _ _ hlast hi, ih last hlast hl', ih i hi hl']

theorem unique_fits (hX : Fits C X) (hY : Fits C Y) (l : List (Inter K)) (hl : AllIn X Y l) :
    unique C l = unique exactCmp l := by
  cases l with
  | nil => rfl
  | cons i l =>
    simp only [unique]
    rw [uniqueFrom_fits hX hY l i (hl i (by simp)) fun j hj => hl j (by simp [hj])]

theorem dedup_fits (hX : Fits C X) (hY : Fits C Y) (l : List (Inter K)) (hl : AllIn X Y l) :
    dedup C l = dedup exactCmp l := by
  unfold dedup
  cases hh : l.head? with
  | none => exact unique_fits hX hY l hl
  | some a =>
    cases ht : l.getLast? with
    | none => exact unique_fits hX hY l hl
    | some b =>
      simp only
      rw [ptEq_fits hX hY a.pt b.pt (hl a (List.mem_of_head? hh)) (hl b (List.mem_of_getLast? ht))]
      apply unique_fits hX hY
      split
      · exact fun i hi => hl i (List.dropLast_subset l hi)
      · exact hl

/-- A ray whose crossings with the lines of the cell's edges are among the numbers, and whose direction is compared
with zero exactly. -/
structure RayIn (C : Cmp K) (X Y : List K) (c : Bounds K) (r : Ray K) : Prop where
  dx : C.eq r.delta.x 0 = decide (r.delta.x = 0)
  dy : C.eq r.delta.y 0 = decide (r.delta.y = 0)
  top : atHeight r.beg r.delta c.top ∈ X
  bot : atHeight r.beg r.delta c.bot ∈ X
  left : atAbscissa r.beg r.delta c.left ∈ Y
  right : atAbscissa r.beg r.delta c.right ∈ Y

theorem horiz_fits (r : Ray K) (hdy : C.eq r.delta.y 0 = decide (r.delta.y = 0)) (a b y : K) (loc : Loc) :
    r.horiz C a b y loc = r.horiz exactCmp a b y loc := by
  unfold Ray.horiz
  rw [hdy]; rfl

theorem vert_fits (r : Ray K) (hdx : C.eq r.delta.x 0 = decide (r.delta.x = 0)) (a b x : K) (loc : Loc) :
    r.vert C a b x loc = r.vert exactCmp a b x loc := by
  unfold Ray.vert
  rw [hdx]; rfl

theorem horiz_in (r : Ray K) (a b y : K) (loc : Loc) (hx : atHeight r.beg r.delta y ∈ X) (hy : y ∈ Y) :
    AllIn X Y (r.horiz exactCmp a b y loc) := by
  intro i hi
  unfold Ray.horiz at hi
  split at hi
  · simp at hi
  · simp only at hi
    split at hi
    · simp at hi
    · simp only [List.mem_singleton] at hi
      subst hi
      exact ⟨hx, hy⟩

theorem vert_in (r : Ray K) (a b x : K) (loc : Loc) (hy : atAbscissa r.beg r.delta x ∈ Y) (hx : x ∈ X) :
    AllIn X Y (r.vert exactCmp a b x loc) := by
  intro i hi
  unfold Ray.vert at hi
  split at hi
  · simp at hi
  · simp only at hi
    split at hi
    · simp at hi
    · simp only [List.mem_singleton] at hi
      subst hi
      exact ⟨hx, hy⟩

theorem intersect_fits (hX : Fits C X) (hY : Fits C Y) (c : Bounds K) (r : Ray K) (hr : RayIn C X Y c r) (s : Seg K)
    (hs : SegIn X Y s) (loc : Loc) : r.intersect C s loc = r.intersect exactCmp s loc := by
  unfold Ray.intersect
  rw [isHoriz_fits hY s hs.2.1 hs.2.2, isVert_fits hX s hs.1.1 hs.1.2, horiz_fits r hr.dy, vert_fits r hr.dx]

theorem intersect_in (c : Bounds K) (hx : c.left < c.right) (hy : c.bot < c.top) (hc : CellIn X Y c) (r : Ray K)
    (hr : RayIn C X Y c r) (s : Seg K) (hs : s ∈ [topEdge c, leftEdge c, botEdge c, rightEdge c]) (loc : Loc)
    (l : List (Inter K)) (hl : r.intersect exactCmp s loc = some l) : AllIn X Y l := by
  obtain ⟨⟨c1, c2⟩, c3, c4⟩ := hc
  simp only [List.mem_cons, List.not_mem_nil, or_false] at hs
  unfold Ray.intersect Seg.isHoriz Seg.isVert exactCmp at hl
  rcases hs with rfl | rfl | rfl | rfl
  · simp only [topEdge, decide_true, if_true, Option.some.injEq] at hl
    rw [← hl]; exact horiz_in r _ _ _ _ hr.top c4
  · simp only [leftEdge, hy.ne, decide_false, Bool.false_eq_true, if_false, decide_true, if_true,
      Option.some.injEq] at hl
    rw [← hl]; exact vert_in r _ _ _ _ hr.left c1
  · simp only [botEdge, decide_true, if_true, Option.some.injEq] at hl
    rw [← hl]; exact horiz_in r _ _ _ _ hr.bot c3
  · simp only [rightEdge, hy.ne, decide_false, Bool.false_eq_true, if_false, decide_true, if_true,
      Option.some.injEq] at hl
    rw [← hl]; exact vert_in r _ _ _ _ hr.right c2

theorem rayInters_fits (hX : Fits C X) (hY : Fits C Y) (c : Bounds K) (hx : c.left < c.right) (hy : c.bot < c.top)
    (hc : CellIn X Y c) (r : Ray K) (hr : RayIn C X Y c r) :
    rayInters C c r = rayInters exactCmp c r ∧ ∀ l, rayInters exactCmp c r = some l → AllIn X Y l := by
  obtain ⟨e1, e2, e3, e4⟩ := edges_in c hc
  unfold rayInters
  rw [intersect_fits hX hY c r hr _ e2, intersect_fits hX hY c r hr _ e3, intersect_fits hX hY c r hr _ e1,
    intersect_fits hX hY c r hr _ e4]
  have sub : ∀ (l : List (Inter K)), AllIn X Y l → AllIn X Y (dedup exactCmp l) := by
    intro l hl i hi
    have h1 : ∀ (l : List (Inter K)) (a : Inter K), ∀ i ∈ uniqueFrom exactCmp a l, i ∈ l := by
      intro l
      induction l with
      | nil => intro a i hi; simp [uniqueFrom] at hi
      | cons b l ih =>
        intro a i hi
        simp only [uniqueFrom] at hi
        split at hi
        · exact List.mem_cons_of_mem _ (ih _ _ hi)
        · rcases List.mem_cons.1 hi with rfl | hi
          · simp
          · exact List.mem_cons_of_mem _ (ih _ _ hi)
    have h2 : ∀ (l : List (Inter K)), ∀ i ∈ unique exactCmp l, i ∈ l := by
      intro l i hi
      cases l with
      | nil => simp [unique] at hi
      | cons a l =>
        simp only [unique] at hi
        rcases List.mem_cons.1 hi with rfl | hi
        · simp
        · exact List.mem_cons_of_mem _ (h1 _ _ _ hi)
    unfold dedup at hi
    cases hh : l.head? with
    | none => rw [hh] at hi; exact hl i (h2 _ _ hi)
    | some a =>
      cases ht : l.getLast? with
      | none => rw [hh, ht] at hi; exact hl i (h2 _ _ hi)
      | some b =>
        rw [hh, ht] at hi
        have h3 : i ∈ if (decide (1 < l.length) && ptEq exactCmp a.pt b.pt) = true then l.dropLast else l := h2 _ _ hi
        by_cases hp : (decide (1 < l.length) && ptEq exactCmp a.pt b.pt) = true
        · rw [if_pos hp] at h3
          exact hl i (List.dropLast_subset l h3)
        · rw [if_neg hp] at h3
          exact hl i h3
  cases h1 : r.intersect exactCmp (topEdge c) .top with
  | none => simp
  | some a =>
    cases h2 : r.intersect exactCmp (leftEdge c) .left with
    | none => simp
    | some b =>
      cases h3 : r.intersect exactCmp (botEdge c) .bot with
      | none => simp
      | some d =>
        cases h4 : r.intersect exactCmp (rightEdge c) .right with
        | none => simp
        | some e =>
          simp only [Option.bind_some]
          have hin : AllIn X Y (a ++ b ++ d ++ e) := by
            intro i hi
            rcases List.mem_append.1 hi with hi | hi
            · rcases List.mem_append.1 hi with hi | hi
              · rcases List.mem_append.1 hi with hi | hi
                · exact intersect_in c hx hy hc r hr _ (by simp) _ a h1 i hi
                · exact intersect_in c hx hy hc r hr _ (by simp) _ b h2 i hi
              · exact intersect_in c hx hy hc r hr _ (by simp) _ d h3 i hi
            · exact intersect_in c hx hy hc r hr _ (by simp) _ e h4 i hi
          rw [dedup_fits hX hY _ hin]
          refine ⟨rfl, ?_⟩
          intro l hl
          split at hl
          · injection hl with hl
            rw [← hl]; exact sub _ hin
          · cases hl

theorem filter_fits (hX : Fits C X) (hY : Fits C Y) (s : Seg K) (hs : SegIn X Y s) (l : List (Inter K))
    (hl : AllIn X Y l) :
    (l.filter fun i => s.containsInters C i.pt) = l.filter fun i => s.containsInters exactCmp i.pt := by
  apply List.filter_congr
  intro i hi
  exact containsInters_fits hX hY s hs i.pt (hl i hi).1 (hl i hi).2

/-- What the comparison has to decide exactly for a beam and a cell. -/
structure Decides (C : Cmp K) (b : Seg K) (c : Bounds K) : Prop where
  xs : Fits C (xsOf b c)
  ys : Fits C (ysOf b c)
  dx : C.eq (b.fin.x - b.beg.x) 0 = decide (b.fin.x - b.beg.x = 0)
  dy : C.eq (b.fin.y - b.beg.y) 0 = decide (b.fin.y - b.beg.y = 0)
  dy' : C.eq (b.beg.y - b.fin.y) 0 = decide (b.beg.y - b.fin.y = 0)

theorem segIn (b : Seg K) (c : Bounds K) : SegIn (xsOf b c) (ysOf b c) b := by
  simp [SegIn, xsOf, ysOf]

theorem cellIn (b : Seg K) (c : Bounds K) : CellIn (xsOf b c) (ysOf b c) c := by
  simp [CellIn, xsOf, ysOf]

theorem alongIn (b : Seg K) (c : Bounds K) (h : Decides C b c) :
    RayIn C (xsOf b c) (ysOf b c) c ⟨b.beg, alongDir b⟩ :=
  ⟨h.dx, h.dy, by simp [xsOf], by simp [xsOf], by simp [ysOf], by simp [ysOf]⟩

theorem acrossIn (b : Seg K) (c : Bounds K) (h : Decides C b c) :
    RayIn C (xsOf b c) (ysOf b c) c ⟨b.fin, acrossDir b⟩ :=
  ⟨h.dy', h.dx, by simp [xsOf], by simp [xsOf], by simp [ysOf], by simp [ysOf]⟩

theorem segInters_fits (b : Seg K) (c : Bounds K) (hx : c.left < c.right) (hy : c.bot < c.top) (h : Decides C b c) :
    segInters C c b = segInters exactCmp c b := by
  obtain ⟨h1, h2⟩ := rayInters_fits h.xs h.ys c hx hy (cellIn b c) _ (alongIn b c h)
  have e : Ray.ofSeg b = ⟨b.beg, alongDir b⟩ := rfl
  unfold segInters
  rw [e, h1]
  cases hl : rayInters exactCmp c ⟨b.beg, alongDir b⟩ with
  | none => rfl
  | some l =>
    simp only [Option.map_some]
    rw [filter_fits h.xs h.ys b (segIn b c) l (h2 l hl)]

theorem chunkInters_fits (b : Seg K) (c : Bounds K) (hx : c.left < c.right) (hy : c.bot < c.top) (h : Decides C b c)
    (isOcc : Bool) : chunkInters C b c isOcc = chunkInters exactCmp b c isOcc := by
  cases isOcc with
  | false => exact segInters_fits b c hx hy h
  | true => exact (rayInters_fits h.xs h.ys c hx hy (cellIn b c) _ (acrossIn b c h)).1

theorem classify_fits (b : Seg K) (c : Bounds K) (hx : c.left < c.right) (hy : c.bot < c.top) (h : Decides C b c) :
    classify C b c = classify exactCmp b c := by
  unfold classify
  rw [isInside_fits h.xs h.ys c (cellIn b c) b (segIn b c), segInters_fits b c hx hy h]

theorem byChunk_fits (E : Est K) (b : Seg K) (c : Bounds K) (hx : c.left < c.right) (hy : c.bot < c.top)
    (h : Decides C b c) (isOcc : Bool) : E.byChunk C b c isOcc = E.byChunk exactCmp b c isOcc := by
  unfold Est.byChunk
  rw [chunkInters_fits b c hx hy h, segInters_fits b c hx hy h]

theorem clear_decides (b : Seg K) (c : Bounds K) (h : Clear b c) : Decides codeCmp b c :=
  ⟨codeCmp_fits _ h.1, codeCmp_fits _ h.2.1, areEqual_separated _ _ h.2.2.1, areEqual_separated _ _ h.2.2.2.1,
    areEqual_separated _ _ h.2.2.2.2⟩

/-- **The code's comparisons are as good as exact ones** on a beam that is clear of coincidences with the cell within the
tolerance and does not run along an edge line. -/
theorem estimate_tolerant_eq_exact (E : Est K) (c : Bounds K) (hx : c.left < c.right) (hy : c.bot < c.top) (shift : K)
    (beam : Seg K) (hs : beam.beg ≠ beam.fin) (hoff : ¬ AlongEdgeLine c beam.beg beam.fin) (hc : Clear beam c)
    (isOcc : Bool) :
    E.estimateWith codeCmp shift beam c isOcc = E.estimateWith exactCmp shift beam c isOcc := by
  have hd := clear_decides beam c hc
  have hf : hasOnEdgeLine exactCmp c beam = false := by
    rw [← Bool.not_eq_true, hasOnEdgeLine_exact c beam hs]; exact hoff
  have h1 : notOnEdge exactCmp shift beam c = some beam := by unfold notOnEdge; rw [hf]; rfl
  have h2 : notOnEdge codeCmp shift beam c = some beam := by
    unfold notOnEdge
    rw [hasOnEdgeLine_fits hd.xs hd.ys c (cellIn beam c) beam (segIn beam c), hf]; rfl
  unfold Est.estimateWith
  rw [h1, h2]
  simp only [Option.bind_some]
  rw [classify_fits beam c hx hy hd, byChunk_fits E beam c hx hy hd]

/-- The same for a beam along an edge line, which is moved off it first: both the beam and the moved beam have to be
clear. -/
theorem estimate_tolerant_along_edge (E : Est K) (c : Bounds K) (hx : c.left < c.right) (hy : c.bot < c.top) (shift : K)
    (beam : Seg K) (hc : Clear beam c)
    (hc' : ∀ dx dy, (|dx| = shift ∧ dy = 0 ∨ dx = 0 ∧ |dy| = shift) → Clear (beam.moved dx dy) c) (h0 : 0 ≤ shift)
    (isOcc : Bool) :
    E.estimateWith codeCmp shift beam c isOcc = E.estimateWith exactCmp shift beam c isOcc := by
  have hd := clear_decides beam c hc
  have hs := segIn beam c
  have hk := cellIn beam c
  have key : notOnEdge codeCmp shift beam c = notOnEdge exactCmp shift beam c ∧
      ∀ b, notOnEdge exactCmp shift beam c = some b → Decides codeCmp b c := by
    unfold notOnEdge
    rw [hasOnEdgeLine_fits hd.xs hd.ys c hk beam hs, isHoriz_fits hd.ys beam hs.2.1 hs.2.2,
      isVert_fits hd.xs beam hs.1.1 hs.1.2, hd.ys.eq _ hs.2.1 _ hk.2.2, hd.xs.eq _ hs.1.1 _ hk.1.2]
    have moved : ∀ d : Point K, (|d.x| = shift ∧ d.y = 0 ∨ d.x = 0 ∧ |d.y| = shift) →
        Decides codeCmp (⟨⟨beam.beg.x + d.x, beam.beg.y + d.y⟩, ⟨beam.fin.x + d.x, beam.fin.y + d.y⟩⟩ : Seg K) c :=
      fun d h => clear_decides _ c (hc' d.x d.y h)
    cases hasOnEdgeLine exactCmp c beam with
    | false =>
      simp only [Bool.not_false, if_true, true_and]
      rintro b ⟨⟩
      exact hd
    | true =>
      simp only [Bool.not_true, Bool.false_eq_true, if_false]
      have hsign : ∀ p : Bool, |(if p then -1 else 1) * shift| = shift := by
        intro p
        cases p <;> simp [abs_of_nonneg h0]
      have step : ∀ d : Point K, (|d.x| = shift ∧ d.y = 0 ∨ d.x = 0 ∧ |d.y| = shift) →
          ((if hasOnEdgeLine codeCmp c (⟨⟨beam.beg.x + d.x, beam.beg.y + d.y⟩, ⟨beam.fin.x + d.x, beam.fin.y + d.y⟩⟩ : Seg K)
              = true then none else
              some (⟨⟨beam.beg.x + d.x, beam.beg.y + d.y⟩, ⟨beam.fin.x + d.x, beam.fin.y + d.y⟩⟩ : Seg K)) =
            (if hasOnEdgeLine exactCmp c (⟨⟨beam.beg.x + d.x, beam.beg.y + d.y⟩, ⟨beam.fin.x + d.x, beam.fin.y + d.y⟩⟩ : Seg K)
              = true then none else
              some (⟨⟨beam.beg.x + d.x, beam.beg.y + d.y⟩, ⟨beam.fin.x + d.x, beam.fin.y + d.y⟩⟩ : Seg K))) ∧
          ∀ b, (if hasOnEdgeLine exactCmp c (⟨⟨beam.beg.x + d.x, beam.beg.y + d.y⟩, ⟨beam.fin.x + d.x, beam.fin.y + d.y⟩⟩ : Seg K)
              = true then none else
              some (⟨⟨beam.beg.x + d.x, beam.beg.y + d.y⟩, ⟨beam.fin.x + d.x, beam.fin.y + d.y⟩⟩ : Seg K)) = some b →
            Decides codeCmp b c := by
        intro d h
        have hm := moved d h
        rw [hasOnEdgeLine_fits hm.xs hm.ys c (cellIn _ c) _ (segIn _ c)]
        refine ⟨rfl, fun b hb => ?_⟩
        split at hb
        · cases hb
        · injection hb with hb
          rw [← hb]; exact hm
      cases beam.isHoriz exactCmp with
      | true =>
        simp only [if_true, Option.bind_some]
        exact step ⟨0, _⟩ (.inr ⟨rfl, by simpa using hsign (decide (beam.beg.y = c.top))⟩)
      | false =>
        cases beam.isVert exactCmp with
        | true =>
          simp only [Bool.false_eq_true, if_true, if_false, Option.bind_some]
          exact step ⟨_, 0⟩ (.inl ⟨by simpa using hsign (decide (beam.beg.x = c.right)), rfl⟩)
        | false => simp
  unfold Est.estimateWith
  rw [key.1]
  cases hb : notOnEdge exactCmp shift beam c with
  | none => rfl
  | some b =>
    have hd := key.2 b hb
    simp only [Option.bind_some]
    rw [classify_fits b c hx hy hd, byChunk_fits E b c hx hy hd]

/-! ### The theorems about exact comparisons, for the code -/

/-- **C49, which beams give an estimate.** With the comparisons of the code, for every square cell of positive size,
every beam of positive length that is clear of coincidences within the tolerance and does not run along an edge line of
the cell: no assertion of the estimator fails, and the estimate is invalid exactly when the beam is not relevant to the
cell. -/
theorem estimate_valid (E : Est K) (c : Bounds K) (hx : c.left < c.right) (hsq : vside c = hside c) (shift : K)
    (h0 : 0 < shift) (h1 : shift < vside c) (beam : Seg K) (hs : beam.beg ≠ beam.fin)
    (hoff : ¬ AlongEdgeLine c beam.beg beam.fin) (hc : Clear beam c) (isOcc : Bool) :
    ∃ r, E.estimateWith codeCmp shift beam c isOcc = some r ∧
      (r.isSome = true ↔ Relevant c beam.beg beam.fin isOcc) := by
  have hy : c.bot < c.top := by unfold vside hside at hsq; linarith
  rw [estimate_tolerant_eq_exact E c hx hy shift beam hs hoff hc]
  exact estimate_valid_exact E c hx hsq shift h0 h1 beam hs hoff isOcc

/-- **C49, beams along an edge line.** They are treated as the same beam moved by the shift towards the opposite edge;
the moved beam has to be clear, too. -/
theorem estimate_valid_along_edge (E : Est K) (c : Bounds K) (hx : c.left < c.right) (hsq : vside c = hside c) (shift : K)
    (h0 : 0 < shift) (h1 : shift < vside c) (beam : Seg K) (hs : beam.beg ≠ beam.fin)
    (hon : AlongEdgeLine c beam.beg beam.fin) (hc : Clear beam c)
    (hc' : ∀ dx dy, (|dx| = shift ∧ dy = 0 ∨ dx = 0 ∧ |dy| = shift) → Clear (beam.moved dx dy) c) (isOcc : Bool) :
    ∃ b r, Nudge c shift beam b ∧ E.estimateWith codeCmp shift beam c isOcc = some r ∧
      (r.isSome = true ↔ Relevant c b.beg b.fin isOcc) := by
  have hy : c.bot < c.top := by unfold vside hside at hsq; linarith
  rw [estimate_tolerant_along_edge E c hx hy shift beam hc hc' h0.le]
  exact estimate_along_edge E c hx hsq shift h0 h1 beam hs hon isOcc

/-! ### Concrete cases -/

/-- A beam through the unit cell that is clear of coincidences. -/
example : Clear (⟨⟨-1, 0⟩, ⟨2, 1⟩⟩ : Seg ℚ) demoCell ∧ ¬ AlongEdgeLine demoCell ⟨-1, 0⟩ ⟨2, 1⟩ := by
  constructor
  · unfold Clear Separated
    decide +kernel
  · norm_num [AlongEdgeLine]

/-- A beam along the lower edge of the unit cell, clear of coincidences also when moved by a hundredth. -/
example : AlongEdgeLine demoCell ⟨-1, 0⟩ ⟨2, 0⟩ ∧ Clear (⟨⟨-1, 0⟩, ⟨2, 0⟩⟩ : Seg ℚ) demoCell ∧
    ∀ dx dy : ℚ, (|dx| = 1 / 100 ∧ dy = 0 ∨ dx = 0 ∧ |dy| = 1 / 100) →
      Clear ((⟨⟨-1, 0⟩, ⟨2, 0⟩⟩ : Seg ℚ).moved dx dy) demoCell := by
  refine ⟨by norm_num [AlongEdgeLine, demoCell], ?_, ?_⟩
  · unfold Clear Separated
    decide +kernel
  · rintro dx dy (⟨h, rfl⟩ | ⟨rfl, h⟩) <;> rcases (abs_eq (by norm_num)).1 h with rfl | rfl <;>
      (unfold Clear Separated; decide +kernel)

/-- Within the tolerance the code and the exact comparisons may differ: a beam that ends half the tolerance beyond an edge
is taken to end on it. -/
theorem near_coincidence_counterexample :
    ∃ (E : Est ℚ) (c : Bounds ℚ) (beam : Seg ℚ), ¬ Clear beam c ∧
      E.estimateWith codeCmp (1 / 100) beam c true ≠ E.estimateWith exactCmp (1 / 100) beam c true := by
  refine ⟨demoEst, demoCell, ⟨⟨-1, 1 / 2⟩, ⟨1 + 1 / (2 * 10 ^ 7), 1 / 2⟩⟩, ?_, by decide +kernel⟩
  unfold Clear Separated
  decide +kernel

end Slam.Estimator
