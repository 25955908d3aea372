import Mathlib.Analysis.SpecialFunctions.Sqrt
/-
Model of `find_line_model`, `find_intercept_point` and `find_ransac`, beam_telescope_analysis/dut_alignment.py L412-523.

Simplifications: real numbers. The random permutations of the iterations (`np.random.shuffle`, L488-489) are an argument; their number is `iterations`.
-/
namespace BTA.Ransac

/-- A row of `data`. -/
abbrev Point := ℝ × ℝ

/-- `sys.float_info.epsilon`. -/
noncomputable def epsilon : ℝ := 1 / 2 ^ 52

/-- `find_line_model`, L412-426: slope and offset; `none` for a division by zero (numpy: infinite or NaN). -/
noncomputable def lineModel (p q : Point) : Option (ℝ × ℝ) := open Classical in
  if q.1 - p.1 + epsilon = 0 then none
  else
    let m := (q.2 - p.2) / (q.1 - p.1 + epsilon)
    some (m, q.2 - m * q.1)

/-- `find_intercept_point`, L429-442. -/
noncomputable def interceptPoint (m c x0 y0 : ℝ) : ℝ × ℝ :=
  ((x0 + m * y0 - m * c) / (1 + m ^ 2), (m * x0 + m ^ 2 * y0 - m ^ 2 * c) / (1 + m ^ 2) + c)

/-- L505-507. -/
noncomputable def distance (m c : ℝ) (p : Point) : ℝ :=
  let q := interceptPoint m c p.1 p.2
  Real.sqrt ((q.1 - p.1) ^ 2 + (q.2 - p.2) ^ 2)

/-- L496-512: the points that are near the line. If the slope is not a number, no comparison is true. -/
noncomputable def inliers (line : Option (ℝ × ℝ)) (threshold : ℝ) (pts : List Point) : List Point := open Classical in
  match line with
  | none => []
  | some (m, c) => pts.filter fun p => distance m c p < threshold

/-- The variables `model_ratio`, `model_m`, `model_c`, `model_x_list` and `model_y_list`; the lists are `none` before the first assignment. -/
structure Best where
  ratio : ℝ
  m : ℝ
  c : ℝ
  xs : Option (List ℝ)
  ys : Option (List ℝ)

inductive Err
  /-- IndexError: there are less than two points -/
  | index
  /-- UnboundLocalError: no iteration has found a point -/
  | unbound
deriving DecidableEq

/-- L515-520: a better model is kept. -/
noncomputable def keep (n : Nat) (line : Option (ℝ × ℝ)) (found : List Point) (b : Best) : Best := open Classical in
  if b.ratio < (found.length : ℝ) / n then
    ⟨(found.length : ℝ) / n, (line.map Prod.fst).getD 0, (line.map Prod.snd).getD 0, some (found.map Prod.fst), some (found.map Prod.snd)⟩
  else b

/-- The loop over the iterations, L487-524. -/
noncomputable def loop (data : List Point) (threshold ratio : ℝ) : List (List Nat) → Best → Except Err Best
  | [], b => .ok b
  | perm :: perms, b => open Classical in
    match perm.filterMap fun i => data[i]? with
    | p :: q :: test =>
      let line := lineModel p q
      let found := inliers line threshold test
      let b' := keep data.length line found b
      if (found.length : ℝ) > data.length * ratio then .ok b' else loop data threshold ratio perms b'
    | _ => .error .index

/-- `find_ransac`, L445-526. -/
noncomputable def findRansac (data : List Point) (perms : List (List Nat)) (threshold ratio : ℝ) : Except Err (ℝ × ℝ × ℝ × List ℝ × List ℝ) :=
  match loop data threshold ratio perms ⟨0, 0, 0, none, none⟩ with
  | .error e => .error e
  | .ok b =>
    match b.xs, b.ys with
    | some xs, some ys => .ok (b.ratio, b.m, b.c, xs, ys)
    | _, _ => .error .unbound

end BTA.Ransac
