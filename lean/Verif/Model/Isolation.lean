import Mathlib.Algebra.Order.Field.Basic
/-
Model of `_find_small_distance`, beam_telescope_analysis/track_analysis.py L1314-1334.

Simplifications:
* Positions are exact numbers of an ordered field; `none` is a position that is not finite (NaN or infinite). Any
  comparison with such a `y` position is False in the code, as long as the maximum distances are finite.
* The three arrays have the same length, so they are one list of `Pt`.
-/
namespace BTA.Iso

/-- One entry of `event_number_array`, `position_array_x`, `position_array_y`. -/
structure Pt (K : Type) where
  event : Int
  x : Option K
  y : Option K
deriving DecidableEq

variable {K : Type} [Field K] [LinearOrder K]

/-- The conditions of L1323-1331 for the entries `index` and `event_index`. -/
def close (ellipse : Bool) (mx my : K) (p q : Pt K) : Bool :=
  match p.x, q.x with
  | some px, some qx =>                                                            -- L1323
    match p.y, q.y with
    | some py, some qy =>
      if ellipse = true ∧ 0 < mx ∧ 0 < my then                                     -- L1325
        decide ((px - qx) ^ 2 / mx ^ 2 + (py - qy) ^ 2 / my ^ 2 ≤ 1)               -- L1326
      else decide (|px - qx| ≤ mx) && decide (|py - qy| ≤ my)                      -- L1330
    | _, _ => false
  | _, _ => false

/-- Innermost loop (L1322-1333): `j` is `event_index`, `i` is `index`. -/
def inner (ellipse : Bool) (mx my : K) (rows : List (Pt K)) (cur : Int) (i : Nat) (p : Pt K) (j : Nat)
    (flags : List Bool) : List Bool :=
  if h : j < rows.length then
    if rows[j].event = cur then
      let flags := if close ellipse mx my p rows[j] then (flags.set i true).set j true else flags   -- L1327-1332
      inner ellipse mx my rows cur i p (j + 1) flags
    else flags
  else flags
termination_by rows.length - j

/-- Middle loop (L1320-1334): the entries of one event. Returns `index` and the flags. -/
def middle (ellipse : Bool) (mx my : K) (rows : List (Pt K)) (cur : Int) (i : Nat) (flags : List Bool) : Nat × List Bool :=
  if h : i < rows.length then
    if rows[i].event = cur then
      middle ellipse mx my rows cur (i + 1) (inner ellipse mx my rows cur i rows[i] (i + 1) flags)
    else (i, flags)
  else (i, flags)
termination_by rows.length - i

theorem middle_ge (ellipse : Bool) (mx my : K) (rows : List (Pt K)) (cur : Int) (i : Nat) (flags : List Bool) :
    i ≤ (middle ellipse mx my rows cur i flags).1 := by
  fun_induction middle ellipse mx my rows cur i flags with
  | case1 i flags h he ih => omega
  | case2 => exact Nat.le_refl _
  | case3 => exact Nat.le_refl _

theorem middle_gt (ellipse : Bool) (mx my : K) (rows : List (Pt K)) (i : Nat) (h : i < rows.length) (flags : List Bool) :
    i < (middle ellipse mx my rows rows[i].event i flags).1 := by
  rw [middle, dif_pos h, if_pos rfl]
  exact middle_ge ..

/-- Outer loop (L1318-1319). -/
def outer (ellipse : Bool) (mx my : K) (rows : List (Pt K)) (i : Nat) (flags : List Bool) : List Bool :=
  if h : i < rows.length then
    outer ellipse mx my rows (middle ellipse mx my rows rows[i].event i flags).1
      (middle ellipse mx my rows rows[i].event i flags).2
  else flags
termination_by rows.length - i
decreasing_by
  have := middle_gt ellipse mx my rows i h flags
  omega

/-- `_find_small_distance` (L1315-1334), called with flags that are all False (L1199, L1219). -/
def smallDistance (ellipse : Bool) (mx my : K) (rows : List (Pt K)) : List Bool :=
  outer ellipse mx my rows 0 (List.replicate rows.length false)

end BTA.Iso
