import Verif.Lemmas.SimChain
import Verif.Spec.SimChain
import Verif.Props.ChainAccuracy
/-
Lemmas for the analysis of simulated data: the hit table of a DUT in terms of the simulated tracks.
-/
namespace BTA.SimChain
open BTA.Sim BTA.Sim.Spec BTA.Chain BTA.MergedColumns BTA.Dut BTA.Geo BTA.Line BTA.Spec

/-- Position with respect to the centre from the position with respect to the corner. -/
theorem corner_centre {s : Settings} {i : Nat} {dut : Bool × Pixels ℝ} {a : Alignment} (o : ℝ × ℝ) (z : ℝ)
    (hpos : ![a.x, a.y, a.z] = (rotationMatrix a.alpha a.beta a.gamma).mulVec ![dut.2.nColumns * dut.2.columnSize / 2, dut.2.nRows * dut.2.rowSize / 2, 0] + ![o.1, o.2, z])
    (q : Vec3) (h : cornerPos o z (a.alpha, a.beta, a.gamma) q 2 = 0) :
    AtLocal a q (cornerPos o z (a.alpha, a.beta, a.gamma) q 0 - dut.2.nColumns * dut.2.columnSize / 2)
      (cornerPos o z (a.alpha, a.beta, a.gamma) q 1 - dut.2.nRows * dut.2.rowSize / 2) := by
  set l := cornerPos o z (a.alpha, a.beta, a.gamma) q with hl
  have e : q = (rotationMatrix a.alpha a.beta a.gamma).mulVec l + ![o.1, o.2, z] := by
    rw [hl]
    unfold cornerPos
    dsimp only
    rw [Matrix.mulVec_mulVec, rotationMatrix_orth', Matrix.one_mulVec, sub_add_cancel]
  unfold AtLocal
  rw [hpos, ← add_assoc, ← Matrix.mulVec_add]
  conv_lhs => rw [e]
  congr 2
  ext k
  fin_cases k
  · simp
  · simp
  · simpa using h

theorem inPixel_centre {size x : ℝ} {c : Int} (n : Nat) (h : InPixel size x c) : |((c : ℝ) - ((n : ℝ) + 1) / 2) * size - (x - (n : ℝ) * size / 2)| ≤ size / 2 := by
  obtain ⟨h1, h2⟩ := h
  rw [abs_le]
  constructor <;> nlinarith

theorem onSensor_pixel {size x : ℝ} (hs : 0 < size) (n : Nat) (h : |x - (n : ℝ) * size / 2| < (n : ℝ) * size / 2) : 1 ≤ pixelOf x size ∧ pixelOf x size ≤ n := by
  obtain ⟨h1, h2⟩ := pixelOf_in hs x
  obtain ⟨h3, h4⟩ := abs_lt.mp h
  constructor
  · have : (0 : ℝ) < (pixelOf x size : ℝ) := by
      by_contra hc
      have := mul_nonpos_of_nonpos_of_nonneg (not_lt.mp hc) hs.le
      linarith
    have : (0 : Int) < pixelOf x size := by exact_mod_cast this
    omega
  · have : (pixelOf x size : ℝ) - 1 < n := by
      by_contra hc
      have := mul_le_mul_of_nonneg_right (not_lt.mp hc) hs.le
      linarith
    have : pixelOf x size - 1 < n := by exact_mod_cast this
    omega

theorem line_at (t : Sim.Track) (q : Vec3) (h : OnLine ![t.x, t.y, 0] (direction t) q) (hcos : Real.cos t.theta ≠ 0) : q = trackAt t (q 2) := by
  obtain ⟨l, rfl⟩ := h
  unfold trackAt
  congr 2
  have : (![t.x, t.y, 0] + l • direction t : Vec3) 2 = l * Real.cos t.theta := by simp [direction]
  rw [this, mul_div_cancel_right₀ _ hcos]

theorem flatten_range {α : Type} (parts : List (List α)) : parts.flatten = (List.range parts.length).flatMap fun k => parts.getD k [] := by
  rw [List.flatMap_def]
  congr 1
  refine List.ext_getElem (by simp) fun k h1 h2 => ?_
  rw [List.getElem_map, List.getElem_range, List.getD_eq_getElem?_getD, List.getElem?_eq_getElem h1]
  rfl

theorem dut_rows {erf : ℝ → ℝ} {u2 : ℝ → Nat} (hu : ∀ a : Int, 0 ≤ a → a < 65536 → ((u2 (a : ℝ) : Nat) : Int) = a) {s : Settings} {d : Nat → Draws} {nEvents chunkSize : Nat}
    {tables : List (List Sim.Row)} (h : createDataAndStore erf u2 s d nEvents chunkSize = .ok tables) (hd : s.discretization = true) (hc : s.chargeSharing = false)
    (hmat : ∀ m ∈ s.dutMaterialBudget, m = 0) (hs : ∀ k i j, Shuffles ((d k).shuffle i j)) (i : Nat) (rows : List Sim.Row) (hrows : tables[i]? = some rows)
    (dut : Bool × Pixels ℝ) (a : Alignment) (hdut : SimDut s i dut a) (hfl : FlatSensor a)
    (hcos : ∀ k < chunkNumber nEvents chunkSize, ∀ t ∈ chunkTracks s d (chunkLength nEvents chunkSize) k, Real.cos t.theta ≠ 0)
    (hon : ∀ k < chunkNumber nEvents chunkSize, ∀ t ∈ chunkTracks s d (chunkLength nEvents chunkSize) k, OnSensor dut a (trackAt t a.z))
    (eff : ℝ) (heff : s.dutEfficiencies[i]? = some eff) (hthr : s.dutThreshold[i]? = some 0) :
    ∃ (idx : Nat → List Nat) (key : Nat → Nat → Int × ℝ × ℝ),
      rows.map (fun r => (r.event, (r.column : ℝ), (r.row : ℝ))) = (List.range (chunkNumber nEvents chunkSize)).flatMap (fun k => (idx k).map (key k)) ∧
      ∀ k < chunkNumber nEvents chunkSize, let T := nTracks (d k) (chunkLength nEvents chunkSize)
        (chunkTracks s d (chunkLength nEvents chunkSize) k).length = T ∧ (idx k).Nodup ∧ (∀ j ∈ idx k, j < T) ∧ (1 ≤ eff → (idx k).Perm (List.range T)) ∧
        (Shuffles ((d k).dut i).shuffle → 0 ≤ eff → eff ≤ 1 → (idx k).length = T - ⌊(T : ℝ) * (1 - eff)⌋.toNat) ∧
        ∀ j ∈ idx k, (key k j).1 = evAt ((k * chunkLength nEvents chunkSize : Nat) : Int) (d k) (chunkLength nEvents chunkSize) j ∧
          ∀ t, (chunkTracks s d (chunkLength nEvents chunkSize) k)[j]? = some t → ∀ u w, AtLocal a (trackAt t a.z) u w →
            |((key k j).2.1 - ((dut.2.nColumns : ℝ) + 1) / 2) * dut.2.columnSize - u| ≤ dut.2.columnSize / 2 ∧
            |((key k j).2.2 - ((dut.2.nRows : ℝ) + 1) / 2) * dut.2.rowSize - w| ≤ dut.2.rowSize / 2 := by
  obtain ⟨h0, -, h2⟩ := store_ok h
  obtain ⟨parts, hparts, hp⟩ := h2 i rows hrows
  obtain ⟨o, z, ho, hz, hpos⟩ := hdut.position
  have hC : chunkOf nEvents chunkSize = chunkLength nEvents chunkSize := by
    unfold chunkOf chunkLength
    split_ifs <;> omega
  have hN : (nEvents + (chunkOf nEvents chunkSize - 1)) / chunkOf nEvents chunkSize = chunkNumber nEvents chunkSize := by
    rw [hC]
    rfl
  rw [hN, hC] at hp
  set C := chunkLength nEvents chunkSize with hCdef
  set N := chunkNumber nEvents chunkSize with hNdef
  have hlen : parts.length = N := by rw [← hp.length_eq, List.length_range]
  have hchunk : ∀ k, ∃ (idx : List Nat) (key : Nat → Int × ℝ × ℝ), k < N → ((parts.getD k []).map (toRow u2)).map (fun r => (r.event, (r.column : ℝ), (r.row : ℝ))) = idx.map key ∧
      (chunkTracks s d C k).length = nTracks (d k) C ∧ idx.Nodup ∧ (∀ j ∈ idx, j < nTracks (d k) C) ∧ (1 ≤ eff → idx.Perm (List.range (nTracks (d k) C))) ∧
        (Shuffles ((d k).dut i).shuffle → 0 ≤ eff → eff ≤ 1 → idx.length = nTracks (d k) C - ⌊(nTracks (d k) C : ℝ) * (1 - eff)⌋.toNat) ∧
        ∀ j ∈ idx, (key j).1 = evAt ((k * C : Nat) : Int) (d k) C j ∧
          ∀ t, (chunkTracks s d C k)[j]? = some t → ∀ u w, AtLocal a (trackAt t a.z) u w →
            |((key j).2.1 - ((dut.2.nColumns : ℝ) + 1) / 2) * dut.2.columnSize - u| ≤ dut.2.columnSize / 2 ∧
            |((key j).2.2 - ((dut.2.nRows : ℝ) + 1) / 2) * dut.2.rowSize - w| ≤ dut.2.rowSize / 2 := by
    intro k
    by_cases hk : k < N
    swap
    · exact ⟨[], fun _ => (0, 0, 0), fun h => absurd h hk⟩
    obtain ⟨-, hget⟩ := List.forall₂_iff_get.mp hp
    obtain ⟨data, hdata, hdk⟩ := hget k (by rw [List.length_range]; exact hk) (by omega)
    simp only [List.get_eq_getElem, List.getElem_range] at hdata hdk
    obtain ⟨tracks, t1, t2, q, q1, idx, i1, i2, i3, i4⟩ := chunk_keys hdata i _ hdk hd hc hmat (hs k) z o _ _ _ eff 0 hz ho hdut.rotation hdut.size hdut.number heff hthr
    have hct : chunkTracks s d C k = tracks := by
      unfold chunkTracks
      unfold nTracks at t1
      rw [t1]
    have hq : ∀ j t, tracks[j]? = some t → q j = trackAt t a.z ∧ AtLocal a (q j) (cornerPos o z (a.alpha, a.beta, a.gamma) (q j) 0 - dut.2.nColumns * dut.2.columnSize / 2)
      (cornerPos o z (a.alpha, a.beta, a.gamma) (q j) 1 - dut.2.nRows * dut.2.rowSize / 2) := by
      intro j t ht
      obtain ⟨c1, c2⟩ := q1 j t ht
      have c3 := corner_centre (s := s) (i := i) (dut := dut) o z hpos (q j) c2
      have c4 := (hfl (q j)).mp ⟨_, _, c3⟩
      refine ⟨?_, c3⟩
      rw [← c4]
      exact line_at t (q j) c1 (hcos k hk t (by rw [hct]; exact List.mem_of_getElem? ht))
    have hpix : ∀ j < nTracks (d k) C, (1 ≤ pixelOf (cornerPos o z (a.alpha, a.beta, a.gamma) (q j) 0) dut.2.columnSize ∧
        pixelOf (cornerPos o z (a.alpha, a.beta, a.gamma) (q j) 0) dut.2.columnSize ≤ dut.2.nColumns) ∧
        1 ≤ pixelOf (cornerPos o z (a.alpha, a.beta, a.gamma) (q j) 1) dut.2.rowSize ∧ pixelOf (cornerPos o z (a.alpha, a.beta, a.gamma) (q j) 1) dut.2.rowSize ≤ dut.2.nRows := by
      intro j hj
      have ht := List.getElem?_eq_getElem (show j < tracks.length by omega)
      obtain ⟨c1, c2⟩ := hq j _ ht
      rw [c1] at c2
      obtain ⟨c3, c4⟩ := hon k hk _ (by rw [hct]; exact List.mem_of_getElem? ht) _ _ c2
      rw [← c1] at c3 c4
      exact ⟨onSensor_pixel hdut.positive.1 _ c3, onSensor_pixel hdut.positive.2 _ c4⟩
    obtain ⟨f1, f2⟩ := i4 hpix rfl
    refine ⟨idx, fun j => (evAt ((k * C : Nat) : Int) (d k) C j, (pixelOf (cornerPos o z (a.alpha, a.beta, a.gamma) (q j) 0) dut.2.columnSize : ℝ),
      (pixelOf (cornerPos o z (a.alpha, a.beta, a.gamma) (q j) 1) dut.2.rowSize : ℝ)), fun _ => ⟨?_, by rw [hct, t2], i2, fun j hj => (i3 j hj).1, f1, f2, ?_⟩⟩
    · have e1 : parts.getD k [] = parts[k]'(by omega) := by
        rw [List.getD_eq_getElem?_getD, List.getElem?_eq_getElem]
        rfl
      rw [e1, List.map_map]
      have e2 : (parts[k]'(by omega)).map ((fun r : Sim.Row => (r.event, (r.column : ℝ), (r.row : ℝ))) ∘ toRow u2) =
          ((parts[k]'(by omega)).map digitKey).map fun x => (x.1, ((u2 x.2.1 : Nat) : ℝ), ((u2 x.2.2 : Nat) : ℝ)) := by
        rw [List.map_map]
        rfl
      rw [e2, i1, List.map_map]
      refine List.map_congr_left fun j hj => ?_
      obtain ⟨-, g1, g2⟩ := i3 j hj
      dsimp only at g1 g2
      have := hdut.small
      have k1 := hu (pixelOf (cornerPos o z (a.alpha, a.beta, a.gamma) (q j) 0) dut.2.columnSize) (by omega) (by omega)
      have k2 := hu (pixelOf (cornerPos o z (a.alpha, a.beta, a.gamma) (q j) 1) dut.2.rowSize) (by omega) (by omega)
      simp only [Function.comp, Prod.mk.injEq, true_and]
      exact ⟨by exact_mod_cast k1, by exact_mod_cast k2⟩
    · intro j hj
      refine ⟨rfl, fun t ht u w huw => ?_⟩
      rw [hct] at ht
      obtain ⟨c1, c2⟩ := hq j t ht
      rw [← c1] at huw
      obtain ⟨rfl, rfl⟩ := BTA.Chain.Props.atLocal_inj _ _ _ _ _ _ huw c2
      exact ⟨inPixel_centre _ (pixelOf_in hdut.positive.1 _), inPixel_centre _ (pixelOf_in hdut.positive.2 _)⟩
  choose idx key hkey using hchunk
  refine ⟨idx, key, ?_, fun k hk => (hkey k hk).2⟩
  rw [hparts, flatten_range, hlen, List.map_flatMap, List.map_flatMap]
  rw [List.flatMap_def, List.flatMap_def]
  congr 1
  refine List.map_congr_left fun k hk => ?_
  exact (hkey k (List.mem_range.mp hk)).1

end BTA.SimChain
