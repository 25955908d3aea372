import Verif.Model.MergeClusters
import Verif.Model.FindFile
import Verif.Model.Dut
/-
Model of the columns of the merged table, beam_telescope_analysis/hit_analysis.py L1562-1600 (description) and L1622-1716 (values of the columns and hit flag).
The rows are those of MergeClusters.lean.

Simplifications: numbers are exact (the charge and the errors are stored as 32 bit floats, the other quantities as integers of the same size as in the cluster table). The exception of
`index_to_local_position` for positions outside of the sensor is not modelled here (see Dut.lean): clusters are inside of the sensor.
-/
namespace BTA.MergedColumns
open BTA.Merge BTA.Dut

/-- Value of a column. -/
inductive Value (K : Type)
  | nan
  | real (v : K)
  | int (v : Int)
deriving DecidableEq

/-- A row of a cluster table. -/
structure Clust (K : Type) where
  ev : Int
  meanColumn : K
  meanRow : K
  errColumn : K
  errRow : K
  meanX : K
  meanY : K
  errX : K
  errY : K
  charge : K
  frame : Int
  nHits : Int
  clusterId : Int
  shape : Int
  nCluster : Int
deriving DecidableEq

/-- The columns of a DUT (L1573-1594). -/
inductive Col
  | x | y | z | charge | frame | nHits | clusterId | shape | nCluster | xErr | yErr | zErr
deriving DecidableEq

/-- Name of a column without the part for the DUT. -/
def Col.base : Col → List Char
  | .x => ['x']
  | .y => ['y']
  | .z => ['z']
  | .charge => ['c', 'h', 'a', 'r', 'g', 'e']
  | .frame => ['f', 'r', 'a', 'm', 'e']
  | .nHits => ['n', '_', 'h', 'i', 't', 's']
  | .clusterId => ['c', 'l', 'u', 's', 't', 'e', 'r', '_', 'I', 'D']
  | .shape => ['c', 'l', 'u', 's', 't', 'e', 'r', '_', 's', 'h', 'a', 'p', 'e']
  | .nCluster => ['n', '_', 'c', 'l', 'u', 's', 't', 'e', 'r']
  | .xErr => ['x', '_', 'e', 'r', 'r']
  | .yErr => ['y', '_', 'e', 'r', 'r']
  | .zErr => ['z', '_', 'e', 'r', 'r']

/-- All columns of a DUT. -/
def fields : List Col := [.x, .y, .z, .charge, .frame, .nHits, .clusterId, .shape, .nCluster, .xErr, .yErr, .zErr]

/-- `'%s_dut_%d' % (name, index)`. -/
def nameOf (f : Col) (d : Nat) : List Char := f.base ++ ['_', 'd', 'u', 't', '_'] ++ Nat.toDigits 10 d

section
variable {K : Type} [Field K] [LinearOrder K]

/-- Values without cluster: NaN for floats (L1623-1633), 0 for the others (`np.zeros`, L1622). -/
def defaultValue : Col → Value K
  | .frame | .nHits | .clusterId | .shape | .nCluster => .int 0
  | _ => .nan

/-- Values of a cluster (L1651-1673, L1690-1711); `usePositions` iff the cluster table has the column `mean_x`. -/
def clusterValue (usePositions : Bool) (p : Pixels K) (c : Clust K) : Col → Value K
  | .x => .real (if usePositions then c.meanX else p.columnSize * (c.meanColumn - 1/2 - 1/2 * p.nColumns))
  | .y => .real (if usePositions then c.meanY else p.rowSize * (c.meanRow - 1/2 - 1/2 * p.nRows))
  | .z => .real 0
  | .charge => .real c.charge
  | .frame => .int c.frame
  | .nHits => .int c.nHits
  | .clusterId => .int c.clusterId
  | .shape => .int c.shape
  | .nCluster => .int c.nCluster
  | .xErr => .real (if usePositions then c.errX else c.errColumn * p.columnSize)
  | .yErr => .real (if usePositions then c.errY else c.errRow * p.rowSize)
  | .zErr => .real 0

/-- Values of a cell of the merged table. -/
def cellValue (usePositions : Bool) (p : Pixels K) (cell : Option (Clust K)) (f : Col) : Value K :=
  match cell with
  | none => defaultValue f
  | some c => clusterValue usePositions p c f

/-- `np.isfinite`. -/
def isFinite : Value K → Bool
  | .nan => false
  | _ => true

/-- Columns of a row by name; other names do not exist (NaN here). `duts` are the settings of the DUTs. -/
def columnsOf (duts : List (Bool × Pixels K)) (cells : List (Option (Clust K))) (name : List Char) : Value K :=
  match ((duts.zip cells).zipIdx.flatMap fun q => fields.map fun f => (nameOf f q.2, cellValue q.1.1.1 q.1.1.2 q.1.2 f)).find? fun v => decide (v.1 = name) with
  | some v => v.2
  | none => .nan

/-- A row of the merged table with the hit flag (L1712-1714). -/
def mergedRow (duts : List (Bool × Pixels K)) (r : Int × List (Option (Clust K))) : BTA.FindFile.Row (Value K) where
  ev := r.1
  flag := BTA.Find.hitFlag duts.length fun d => isFinite (columnsOf duts r.2 (nameOf .x d))
  cols := columnsOf duts r.2

end

end BTA.MergedColumns
