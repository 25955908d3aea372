import Verif.Model.Prealign
import Verif.Model.Correlate
/-
The correlation file between `correlate` (hit_analysis.py L1396-1466) and `prealign` (dut_alignment.py L253-272): the arrays and the attributes that are
written by the one and read by the other.
-/
namespace BTA.Prealign
open BTA.Corr

/-- The pixel matrix and the alignment of a DUT of the telescope. -/
def planeOf (d : PDut) : Plane := ⟨d.pixels, d.align⟩

/-- hit_analysis.py L1321-1335: the extent of an axis. -/
noncomputable def extentOf (a : Axis) (res : ℝ) : ℝ × ℝ := (a.start, a.start + a.bins * res)

/-- An array with `n` rows and `m` columns. -/
noncomputable def arrayOf (n m : Nat) (h : Nat → Nat → ℝ) : List (List ℝ) := (List.range n).map fun i => (List.range m).map fun j => h i j

/-- dut_alignment.py L253-272: the node of the x axis or of the y axis; `reduce` is the argument `reduce_background`. The attributes are those of
hit_analysis.py L1409-1411, L1423-1425, L1439-1441, L1453-1455. -/
noncomputable def nodeOf (res : ℝ × ℝ) (reduce : Bool) (e : Entry) (x : Bool) : Node :=
  if x then
    ⟨res.1, extentOf e.ra.x res.1, extentOf e.da.x res.1,
      arrayOf e.da.x.bins e.ra.x.bins fun i j => if reduce then (e.xReduced i j : ℝ) else (e.x i j : ℝ)⟩
  else
    ⟨res.2, extentOf e.ra.y res.2, extentOf e.da.y res.2,
      arrayOf e.da.y.bins e.ra.y.bins fun i j => if reduce then (e.yReduced i j : ℝ) else (e.y i j : ℝ)⟩

/-- dut_alignment.py L254-257: the nodes are found by the numbers of the reference and of the DUT. -/
noncomputable def fileOf (res : ℝ × ℝ) (reduce : Bool) (out : List Entry) (ref : Nat) : File := fun i x =>
  (out.find? fun e => e.ref == (ref : Int) && e.dut == (i : Int)).map fun e => nodeOf res reduce e x

end BTA.Prealign
