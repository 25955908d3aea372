/-
Model of the Morton code and the cluster shape functions, beam_telescope_analysis/tools/analysis_utils.py L986-1061.

Numba integer arithmetic is modelled on 64 bit vectors (arithmetic modulo 2^64).
-/
namespace BTA

/-- The five spread steps applied to each coordinate in `xy2d_morton` (L992-996 and L998-1002). -/
def spread (x : BitVec 64) : BitVec 64 :=
  let x := (x ||| (x <<< 16)) &&& 0x0000FFFF0000FFFF#64
  let x := (x ||| (x <<< 8)) &&& 0x00FF00FF00FF00FF#64
  let x := (x ||| (x <<< 4)) &&& 0x0F0F0F0F0F0F0F0F#64
  let x := (x ||| (x <<< 2)) &&& 0x3333333333333333#64
  (x ||| (x <<< 1)) &&& 0x5555555555555555#64

/-- `xy2d_morton(x, y)` (L986-1004); the arguments are converted to uint32 by the numba signature. -/
def xy2dMorton (x y : BitVec 32) : BitVec 64 :=
  spread (x.setWidth 64) ||| (spread (y.setWidth 64) <<< 1)

/-- `morton_1(x)` (L1007-1015); the last mask does not remove anything. -/
def morton1 (x : BitVec 64) : BitVec 64 :=
  let x := x &&& 0x5555555555555555#64
  let x := (x ||| (x >>> 1)) &&& 0x3333333333333333#64
  let x := (x ||| (x >>> 2)) &&& 0x0F0F0F0F0F0F0F0F#64
  let x := (x ||| (x >>> 4)) &&& 0x00FF00FF00FF00FF#64
  let x := (x ||| (x >>> 8)) &&& 0x0000FFFF0000FFFF#64
  (x ||| (x >>> 16)) &&& 0xFFFFFFFFFFFFFFFF#64

/-- `d2xy_morton(d)` (L1018-1024). -/
def d2xyMorton (d : BitVec 64) : BitVec 64 × BitVec 64 := (morton1 d, morton1 (d >>> 1))

/-- Index pairs of the true entries of an `n × m` array in row-major order, `np.nonzero` (L1032). -/
def nonzero (n m : Nat) (a : Nat → Nat → Bool) : List (Nat × Nat) :=
  (List.range n).flatMap fun x => ((List.range m).filter fun y => a x y).map fun y => (x, y)

/-- `calculate_cluster_shape` (L1027-1035) of an 8x8 array: sum of powers of two in uint64. -/
def clusterShape (a : Nat → Nat → Bool) : Nat :=
  (nonzero 8 8 a).foldl
    (fun s p => (s + 2 ^ (xy2dMorton (BitVec.ofNat 32 p.1) (BitVec.ofNat 32 p.2)).toNat) % 2 ^ 64) 0

/-- Loop of `calculate_cluster_array` (L1043-1048): for `i = n-1, ..., 0`. -/
def clusterArrayLoop : Nat → Nat → (Nat → Nat → Bool) → (Nat → Nat → Bool)
  | 0, _, a => a
  | i + 1, s, a =>
    if 2 ^ i ≤ s then
      let p := d2xyMorton (BitVec.ofNat 64 i)
      clusterArrayLoop i (s - 2 ^ i) fun x y => if x = p.1.toNat ∧ y = p.2.toNat then true else a x y
    else clusterArrayLoop i s a

/-- `calculate_cluster_array` (L1038-1049). Only the entries with both indices < 8 exist. -/
def clusterArray (s : Nat) : Nat → Nat → Bool := clusterArrayLoop 64 s fun _ _ => false

/-- `number_of_set_bits` (L1052-1061). In Python `+` binds stronger than `&`. -/
def numberOfSetBits (val : Nat) : Nat :=
  let val := val - ((val >>> 1) &&& 0x55555555)
  let val := (val &&& 0x33333333) + ((val >>> 2) &&& 0x33333333)
  ((((val + (val >>> 4)) &&& 0xF0F0F0F) * 0x1010101) &&& 0xffffffff) >>> 24

end BTA
