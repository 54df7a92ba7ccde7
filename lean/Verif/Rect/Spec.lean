import Verif.Rect.Model

/-! # Specification vocabulary: rectangles as closed point sets -/

set_option autoImplicit false

namespace Slam.Rect
open Slam.Grid
variable {K : Type*} [Field K] [LinearOrder K] [IsStrictOrderedRing K]

/-- A proper rectangle (the constructor's asserts, geometry_primitives.h:172-173). -/
def Proper (r : Bounds K) : Prop := r.bot ≤ r.top ∧ r.left ≤ r.right

/-- Points of the closed rectangle. -/
def points (r : Bounds K) : Set (Point K) :=
  {p | r.left ≤ p.x ∧ p.x ≤ r.right ∧ r.bot ≤ p.y ∧ p.y ≤ r.top}

/-- Points of the open rectangle. -/
def interior (r : Bounds K) : Set (Point K) :=
  {p | r.left < p.x ∧ p.x < r.right ∧ r.bot < p.y ∧ p.y < r.top}

/-- `parts` tile `r`: they are proper, cover exactly its points, have pairwise disjoint interiors and their areas
add up. -/
def Tiles (r : Bounds K) (parts : List (Bounds K)) : Prop :=
  (∀ q ∈ parts, Proper q) ∧ (∀ p, p ∈ points r ↔ ∃ q ∈ parts, p ∈ points q) ∧
  parts.Pairwise (fun a b => ∀ p, ¬ (p ∈ interior a ∧ p ∈ interior b)) ∧
  (parts.map area).sum = area r

/-- Exact comparison. -/
def exactLe (a b : K) : Bool := decide (a ≤ b)

/-- Two coordinates the tolerant comparison cannot confuse: equal, or further apart than the tolerances. -/
def Separated (a b : K) : Prop := a = b ∨ (1 / 10 ^ 7 * max 1 (max |a| |b|) < |a - b|)

/-- All the horizontal, and all the vertical, coordinates of the two rectangles are pairwise separated. -/
def SeparatedRects (a b : Bounds K) : Prop :=
  (∀ u ∈ [a.left, a.right], ∀ v ∈ [b.left, b.right], Separated u v) ∧
  (∀ u ∈ [a.bot, a.top], ∀ v ∈ [b.bot, b.top], Separated u v)

/-- Cross-shaped placement: one rectangle strictly sticks out on both sides horizontally, the other one
vertically. -/
def Cross (a b : Bounds K) : Prop :=
  (a.left < b.left ∧ b.right < a.right ∧ b.bot < a.bot ∧ a.top < b.top) ∨
  (b.left < a.left ∧ a.right < b.right ∧ a.bot < b.bot ∧ b.top < a.top)

/-- Area of the common part of two rectangles. -/
def commonArea (a b : Bounds K) : K :=
  max 0 (min a.right b.right - max a.left b.left) * max 0 (min a.top b.top - max a.bot b.bot)

end Slam.Rect
