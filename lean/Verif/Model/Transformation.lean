import Verif.Model.Dut
/-
Model of `calculate_transformation` (beam_telescope_analysis/dut_alignment.py L1725-1980).

Floats are real numbers (no rounding), NaN only where stated. The functions of `np.linalg` are parameters (`Numpy`): the matrix
`tot_matr_inv` made from the singular value decomposition of the system, and the decomposition of 3 x 3 matrices. The positions of
`np.linspace(0, n, m + 1).astype(int)` are exact (numpy rounds `i * (n / m)`, which can change a position by one).
Not modelled: the limits of the configuration are finite numbers or missing (`isfinite`), logging.
-/
namespace BTA.Transformation
open BTA.Geo BTA.Dut

inductive Err
  /-- ValueError: wrong length of select_alignment_parameters (L1749-1750) -/
  | wrongLength
  /-- ValueError: unknown parameter (L1755-1757) -/
  | unknownParameter
  /-- ZeroDivisionError: chunk_size is 0 (L1780) -/
  | chunkSize
  /-- the loop of L1781-1785 has not ended -/
  | running
  /-- RuntimeError: local z is not 0 (`local_to_global_position` or L1817-1818) -/
  | zNotZero
  /-- UnboundLocalError: no iteration, so `translation` has no value (L1921) -/
  | noIteration
  /-- a singular value of the system is 0: numpy divides by 0. LinAlgError of the next decomposition; simplified: if no rotation is
  selected the code goes on with NaN -/
  | singular
  /-- ZeroDivisionError of `np.average`, the weights are all 0 -/
  | noWeight
  /-- LinAlgError: no chunk, `np.linalg.svd(None)` (L1967) -/
  | noChunk
  /-- exception of `euler_angles`, or angles that are NaN -/
  | euler
deriving DecidableEq

/-- The columns of a row of the track table that are used. `hit` is none where `x_dut` is NaN, `fitted` is false where `track_chi2` is
NaN. -/
structure Row where
  hit : Option Vec3
  fitted : Bool
  offset : Vec3
  slope : Vec3

/-- What is used of a DUT. The limits are (lower, upper); none inside of a limit is a value that is not finite. -/
structure DutConf where
  alignment : Alignment
  xLimit : Option (Option ℝ × Option ℝ)
  yLimit : Option (Option ℝ × Option ℝ)

/-- The functions of numpy. -/
structure Numpy where
  /-- L1902-1905: `tot_matr_inv` as list of its columns, for the rows of `tot_matr`; none if a singular value is 0 -/
  pinv : List (Fin 6 → ℝ) → Option (List (Fin 6 → ℝ))
  /-- `np.linalg.svd(M, full_matrices=False)` -/
  svd : Mat3 → Mat3 × Vec3 × Mat3

/-! ### Chunks, L1779-1790 -/

/-- L1782: `np.linspace(0, n, m + 1).astype(int)[i]`. -/
def splitPoint (n m i : Nat) : Nat := i * n / m

/-- L1783: `np.all(np.diff(chunk_indices) <= chunk_size)`. -/
def smallEnough (n chunkSize m : Nat) : Bool :=
  (List.range m).all fun i => decide (splitPoint n m (i + 1) - splitPoint n m i ≤ chunkSize)

/-- L1781-1785: the loop; `m` is `start_val - 1`. -/
def findSplit (n chunkSize : Nat) : Nat → Nat → Option Nat
  | 0, _ => none
  | fuel + 1, m => if smallEnough n chunkSize m then some m else findSplit n chunkSize fuel (m + 1)

/-- L1780: the first `start_val - 1`. -/
def firstSplit (n chunkSize : Nat) : Nat := max (n / chunkSize) 2 - 1

/-- L1789-1790: start and stop of the chunks that are read. -/
def ranges (n m : Nat) : List (Nat × Nat) :=
  ((List.range m).map fun i => (splitPoint n m i, splitPoint n m (i + 1))).takeWhile fun p => decide (p.1 < n)

/-- `node.read(start, stop)`. -/
def readRows (table : List Row) (p : Nat × Nat) : List Row := (table.drop p.1).take (p.2 - p.1)

/-! ### One chunk -/

/-- A selected track: hit (local), offset and slope (global). -/
structure Track where
  hit : Vec3
  offset : Vec3
  slope : Vec3

/-- L1820-1828: inside of a limit. -/
def inLimit (limit : Option (Option ℝ × Option ℝ)) (v : ℝ) : Prop :=
  match limit with
  | none => True
  | some l => (match l.1 with | none => True | some a => a ≤ v) ∧ (match l.2 with | none => True | some b => v ≤ b)

/-- L1792-1793: rows with hit and fit. -/
def withHit (chunk : List Row) : List (Vec3 × Row) := (chunk.filter Row.fitted).filterMap fun r => r.hit.map fun h => (h, r)

/-- The alignment parameters given for the slopes (L1804-1814). -/
def slopeOverride (a : Alignment) : Override := ⟨some 0, some 0, some 0, some a.alpha, some a.beta, some a.gamma⟩

/-- L1792-1835: the tracks of a chunk. -/
noncomputable def tracksOf (d : DutConf) (useLimits : Bool) (chunk : List Row) : Except Err (List Track) := open Classical in
  let sel := withHit chunk
  match localToGlobal d.alignment {} (sel.map fun p => p.2.offset) with
  | .error _ => .error .zNotZero
  | .ok offsets =>
    match localToGlobal d.alignment (slopeOverride d.alignment) (sel.map fun p => p.2.slope) with
    | .error _ => .error .zNotZero
    | .ok slopes =>
      if !zClose (sel.map fun p => p.1 2) then .error .zNotZero
      else
        let all := List.zipWith (fun (h : Vec3) (q : Vec3 × Vec3) => (⟨h, q.1, q.2⟩ : Track)) (sel.map Prod.fst) (offsets.zip slopes)
        .ok (if useLimits then all.filter fun t => decide (inLimit d.xLimit (t.hit 0)) && decide (inLimit d.yLimit (t.hit 1)) else all)

/-- L1868-1869: `l_matr`. -/
noncomputable def lMatrix (slope : Vec3) : Mat3 := 1 - Matrix.vecMulVec slope slope

/-- L1870-1873: the three rows of `tot_matr` of a track. -/
noncomputable def systemRows (rotation : Mat3) (t : Track) : List (Fin 6 → ℝ) :=
  let A := lMatrix t.slope * skew (rotation.mulVec t.hit)
  let B := lMatrix t.slope * (-1 : Mat3)
  (List.finRange 3).map fun i => ![A i 0, A i 1, A i 2, B i 0, B i 1, B i 2]

/-- L1874-1875: the three entries of `tot_b` of a track. -/
noncomputable def systemRhs (rotation : Mat3) (translation : Vec3) (t : Track) : List ℝ :=
  let b := (lMatrix t.slope).mulVec t.offset - (lMatrix t.slope).mulVec (rotation.mulVec t.hit + translation)
  (List.finRange 3).map fun i => b i

/-- `np.dot(inverse, b)`, the inverse given by its columns. -/
def applyColumns (columns : List (Fin 6 → ℝ)) (b : List ℝ) : Fin 6 → ℝ := (List.zipWith (fun (c : Fin 6 → ℝ) (v : ℝ) => v • c) columns b).sum

/-- L1902-1906: `omega_b_dot`. -/
noncomputable def solve (np : Numpy) (tracks : List Track) (rotation : Mat3) (translation : Vec3) : Option (Fin 6 → ℝ) :=
  (np.pinv (tracks.flatMap (systemRows rotation))).map fun inv =>
    applyColumns inv ((tracks.flatMap (systemRhs rotation translation)).map fun b => -1 * b)

/-- L1911-1922: changes of parameters that are not selected are set to 0. -/
noncomputable def restrict (params : List String) (omega : Fin 6 → ℝ) : Fin 6 → ℝ :=
  ![if "rotation_alpha" ∈ params then omega 0 else 0, if "rotation_beta" ∈ params then omega 1 else 0,
    if "rotation_gamma" ∈ params then omega 2 else 0, if "translation_x" ∈ params then omega 3 else 0,
    if "translation_y" ∈ params then omega 4 else 0, if "translation_z" ∈ params then omega 5 else 0]

/-- L1931-1932, L1967-1968: the product of the orthogonal matrices of the decomposition. -/
def orthogonalize (np : Numpy) (M : Mat3) : Mat3 := (np.svd M).1 * (np.svd M).2.2

/-- `np.allclose(a, b, rtol=0.0, atol=tol)` -/
def closeVec (tol : ℝ) (a b : Vec3) : Prop := ∀ i, |a i - b i| ≤ tol
def closeMat (tol : ℝ) (a b : Mat3) : Prop := ∀ i j, |a i j - b i j| ≤ tol

/-- L1930-1933: the next rotation and translation. -/
noncomputable def advance (np : Numpy) (deltaT : ℝ) (omega : Fin 6 → ℝ) (rotation : Mat3) (translation : Vec3) : Mat3 × Vec3 :=
  (orthogonalize np ((1 + deltaT • skew ![omega 0, omega 1, omega 2]) * rotation), translation + deltaT • ![omega 3, omega 4, omega 5])

/-- L1851-1947: the iterations from number `i` on; `old` are rotation and translation before the last iteration (`rotation_old2`,
`translation_old2` after L1925-1926; they are None only for `i < 2`, where they are not used). -/
noncomputable def iterate (np : Numpy) (params : List String) (tracks : List Track) :
    Nat → Nat → ℝ → Mat3 × Vec3 → Mat3 × Vec3 → Except Err (Mat3 × Vec3)
  | 0, _, _, _, cur => .ok cur
  | k + 1, i, deltaT, old, cur => open Classical in
    match solve np tracks cur.1 cur.2 with
    | none => .error .singular
    | some omega =>
      let new := advance np deltaT (restrict params omega) cur.1 cur.2
      if 2 ≤ i then
        if closeMat 1e-5 new.1 cur.1 ∧ closeVec 1e-4 new.2 cur.2 then .ok new
        else if closeMat 1e-4 new.1 old.1 ∨ closeVec 1e-3 new.2 old.2 ∨ closeMat 1e-5 new.1 cur.1 ∨ closeVec 1e-4 new.2 cur.2 then
          iterate np params tracks k (i + 1) 0.3 cur new
        else iterate np params tracks k (i + 1) deltaT cur new
      else iterate np params tracks k (i + 1) deltaT cur new

/-- L1837-1862: the start values. -/
noncomputable def startOf (a : Alignment) : Mat3 × Vec3 := (rotationMatrix a.alpha a.beta a.gamma, ![a.x, a.y, a.z])

/-- L1791-1947: rotation, translation and number of tracks of a chunk. -/
noncomputable def chunkResult (np : Numpy) (d : DutConf) (useLimits : Bool) (params : List String) (iterations : Nat)
    (chunk : List Row) : Except Err ((Mat3 × Vec3) × Nat) :=
  match tracksOf d useLimits chunk with
  | .error e => .error e
  | .ok tracks =>
    if iterations = 0 then .error .noIteration
    else
      match iterate np params tracks iterations 0 0.9 (startOf d.alignment) (startOf d.alignment) with
      | .error e => .error e
      | .ok r => .ok (r, tracks.length)

/-! ### Average -/

/-- The variables of the loop over the chunks that are used later: `translation_average`, `rotation_average`, `rotation`,
`total_n_tracks`. -/
structure Average where
  translation : Vec3
  average : Mat3
  rotation : Mat3
  total : Nat

/-- L1949-1963. -/
noncomputable def addChunk (avg : Option Average) (r : (Mat3 × Vec3) × Nat) : Except Err Average :=
  match avg with
  | none => .ok ⟨r.1.2, r.1.1, r.1.1, r.2⟩
  | some a =>
    if r.2 + a.total = 0 then .error .noWeight
    else .ok {
      translation := ((r.2 + a.total : Nat) : ℝ)⁻¹ • ((r.2 : ℝ) • r.1.2 + (a.total : ℝ) • a.translation)
      average := ((r.2 + a.total : Nat) : ℝ)⁻¹ • ((r.2 : ℝ) • r.1.1 + (a.total : ℝ) • a.average)
      rotation := r.1.1
      total := a.total + r.2 }

/-- L1789-1964: the loop over the chunks. -/
noncomputable def chunkLoop (np : Numpy) (d : DutConf) (useLimits : Bool) (params : List String) (iterations : Nat) :
    List (List Row) → Option Average → Except Err (Option Average)
  | [], avg => .ok avg
  | c :: cs, avg =>
    match chunkResult np d useLimits params iterations c with
    | .error e => .error e
    | .ok r =>
      match addChunk avg r with
      | .error e => .error e
      | .ok a => chunkLoop np d useLimits params iterations cs (some a)

/-- L1966-1976: the new alignment. The orthogonalized average of the rotations (L1967-1968) is not used: `euler_angles` is called
with the rotation of the last chunk (L1969). -/
noncomputable def finish (avg : Option Average) : Except Err Alignment :=
  match avg with
  | none => .error .noChunk
  | some a =>
    match eulerAngles a.rotation with
    | .angles alpha beta gamma => .ok ⟨a.translation 0, a.translation 1, a.translation 2, alpha, beta, gamma⟩
    | _ => .error .euler

/-- The arguments. -/
structure Args where
  useLimits : Bool := true
  maxIterations : Option Nat := none
  chunkSize : Nat := 1000000

/-- L1762-1976: one DUT. -/
noncomputable def dutTransformation (np : Numpy) (args : Args) (fuel : Nat) (params : List String) (d : DutConf) (table : List Row) :
    Except Err Alignment :=
  if args.chunkSize = 0 then .error .chunkSize
  else
    match findSplit table.length args.chunkSize fuel (firstSplit table.length args.chunkSize) with
    | none => .error .running
    | some m =>
      match chunkLoop np d args.useLimits params (args.maxIterations.getD 100) ((ranges table.length m).map (readRows table)) none with
      | .error e => .error e
      | .ok avg => finish avg

/-- `default_alignment_parameters`, L26. -/
def defaultParameters : List String :=
  ["translation_x", "translation_y", "translation_z", "rotation_alpha", "rotation_beta", "rotation_gamma"]

/-- L1747-1757: the parameters of each DUT. -/
def selectParameters (nDuts : Nat) (select : Option (List (Option (List String)))) : Except Err (List (List String)) :=
  let given := select.getD (List.replicate nDuts (some defaultParameters))
  if nDuts ≠ given.length then .error .wrongLength
  else if given.all fun p => (p.getD defaultParameters).all fun n => decide (n ∈ defaultParameters) then
    .ok (given.map fun p => p.getD defaultParameters)
  else .error .unknownParameter

/-- L1759-1976: the loop over the DUTs. A DUT that is selected twice uses the alignment of the first time. -/
noncomputable def dutLoop (np : Numpy) (args : Args) (fuel : Nat) (tables : Nat → List Row) :
    List (Nat × List String) → (Nat → DutConf) → Except Err (Nat → DutConf)
  | [], conf => .ok conf
  | (i, params) :: r, conf =>
    match dutTransformation np args fuel params (conf i) (tables i) with
    | .error e => .error e
    | .ok a => dutLoop np args fuel tables r fun k => if k = i then { conf i with alignment := a } else conf k

/-- `calculate_transformation`: the configuration that is saved at the end (L1977). -/
noncomputable def calculateTransformation (np : Numpy) (args : Args) (fuel : Nat) (duts : List Nat)
    (select : Option (List (Option (List String)))) (tables : Nat → List Row) (conf : Nat → DutConf) : Except Err (Nat → DutConf) :=
  match selectParameters duts.length select with
  | .error e => .error e
  | .ok ps => dutLoop np args fuel tables (duts.zip ps) conf

end BTA.Transformation
