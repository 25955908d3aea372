import Verif.Lemmas.SimData
import Verif.Props.Simulate
/-
C136, C137, C138, C140-C143, C166: content of simulated data, tools/simulate_data.py.
-/
namespace BTA.Sim.Props
open BTA.Sim.Spec BTA.Geo BTA.Spec

section
variable {K : Type} [Field K] [LinearOrder K]

/-! ### C166 -/

theorem digitize_length [FloorRing K] {minF : K} {disc sharing : Bool} {frac : K → K → Int → Int → K} {r : Response K} {g : Random K}
    {hits : List (TrackHit K)} {l p : List (Digit K)} (hp : positions minF disc sharing frac r g.charge hits = .ok p)
    (h : digitize minF disc sharing frac r g hits = .ok l) : l.length ≤ p.length := by
  unfold digitize at h
  rw [hp] at h
  cases h
  have h1 := (aboveThreshold_sublist r (addNoise r g.noise (inefficient r g.shuffle p))).length_le
  have h2 := congrArg List.length (addNoise_same r g.noise (inefficient r g.shuffle p) (fun _ => ()) (fun _ _ => rfl))
  rw [List.length_map, List.length_map] at h2
  have h3 := (inefficient_sublist r g.shuffle p).length_le
  omega

/-- C166: with charge sharing there are never more than five hits for each track on average. -/
theorem C166_at_most_five [FloorRing K] (minF : K) (frac : K → K → Int → Int → K) (r : Response K) (g : Random K) (hits : List (TrackHit K))
    (l : List (Digit K)) (h : digitize minF true true frac r g hits = .ok l) : l.length ≤ 5 * hits.length := by
  cases hp : positions minF true true frac r g.charge hits with
  | error e =>
    unfold digitize at h
    rw [hp] at h
    cases h
  | ok p =>
    have h1 := digitize_length hp h
    unfold positions at hp
    rw [if_pos rfl, if_pos rfl] at hp
    split at hp
    · cases hp
    · next q e =>
      cases hp
      have h2 := addCs_room e (Nat.zero_le _)
      have h3 : ((q.map toDigit).filter (inside r)).length ≤ q.length := by
        have := (List.filter_sublist (p := inside r) (l := q.map toDigit)).length_le
        rwa [List.length_map] at this
      omega

/-- C166: let `shared` be the hits of the tracks with charge sharing, made one track after the other with room for any number of hits. The
digitization raises the RuntimeError exactly if they are more than five times the number of tracks. -/
theorem C166_error_iff [FloorRing K] (minF : K) (frac : K → K → Int → Int → K) (r : Response K) (g : Random K) (hits : List (TrackHit K))
    (size : Nat) (shared : List (Int × PixelHit K)) (hs : addCs minF r.columns r.rows frac size 0 (seeds r g.charge hits) = .ok shared) :
    (∃ e, digitize minF true true frac r g hits = .error e) ↔ 5 * hits.length < shared.length := by
  constructor
  · rintro ⟨e, h⟩
    by_contra hle
    have hok := addCs_more hs (size := 5 * hits.length) (by omega)
    unfold digitize positions at h
    rw [if_pos rfl, if_pos rfl, hok] at h
    cases h
  · intro hlt
    cases hok : digitize minF true true frac r g hits with
    | error e => exact ⟨e, rfl⟩
    | ok l =>
      exfalso
      unfold digitize positions at hok
      rw [if_pos rfl, if_pos rfl] at hok
      split at hok
      · cases hok
      · next p e =>
        split at e
        · cases e
        · next q eq =>
          have hroom := addCs_room eq (Nat.zero_le _)
          have hbig := addCs_room hs (Nat.zero_le _)
          have := addCs_more eq (size := size) (by omega)
          rw [hs] at this
          cases this
          omega

/-- A track in the corner between pixels of which each gets 1/9 of the charge: nine hits are too many for one track, but not for two tracks, if
the other one makes one hit only. -/
example : (digitize (1 / 100) true true (fun _ _ i j => if -1 ≤ i ∧ i ≤ 1 ∧ -1 ≤ j ∧ j ≤ 1 then 1 / 9 else 0)
      (⟨0, 0, 50, 100, 9, 9, 1⟩ : Response ℚ) noRandom [⟨4, 60, 130⟩]).toOption = none ∧
    (digitize (1 / 100) true true (fun x _ i j => if x = 0 then (if i = 0 ∧ j = 0 then 1 else 0) else if -1 ≤ i ∧ i ≤ 1 ∧ -1 ≤ j ∧ j ≤ 1 then 1 / 9 else 0)
      (⟨0, 0, 50, 100, 9, 9, 1⟩ : Response ℚ) noRandom [⟨4, 60, 130⟩, ⟨5, 75, 150⟩]).toOption.map (fun l => l.map Digit.event) =
      some [4, 4, 4, 4, 4, 4, 4, 4, 4, 5] := ⟨by decide +kernel, by decide +kernel⟩

/-! ### C143 -/

/-- C143: with a threshold, exactly the hits remain that have at least this charge (including noise). -/
theorem C143_threshold [FloorRing K] (minF : K) (disc sharing : Bool) (frac : K → K → Int → Int → K) (r : Response K) (g : Random K)
    (hits : List (TrackHit K)) (ht : r.threshold ≠ 0) (all l : List (Digit K))
    (hall : digitize minF disc sharing frac { r with threshold := 0 } g hits = .ok all) (hl : digitize minF disc sharing frac r g hits = .ok l) :
    l = all.filter fun d => decide (r.threshold ≤ d.charge) := by
  have hpos : positions minF disc sharing frac { r with threshold := 0 } g.charge hits = positions minF disc sharing frac r g.charge hits := rfl
  unfold digitize at hall hl
  rw [hpos] at hall
  split at hall
  · cases hall
  · next p e =>
    rw [e] at hl
    cases hall
    cases hl
    have h0 : ∀ q : List (Digit K), aboveThreshold { r with threshold := 0 } q = q := by
      intro q
      unfold aboveThreshold
      rw [if_neg (by simp)]
    rw [h0]
    unfold aboveThreshold
    rw [if_pos ht]
    rfl

/-- Two hits above the threshold, one below it. -/
example : digitize (1 / 100) true false (fun _ _ _ _ => 0) { sensor with threshold := 500 } { noRandom with charge := fun i => 300 * (i + 1) }
    [⟨4, 60, 30⟩, ⟨4, 10, 30⟩, ⟨5, 140, 170⟩] = .ok [⟨4, 1, 1, 600⟩, ⟨5, 3, 2, 900⟩] := by decide +kernel

end

/-! ### C136 -/

/-- C136: the tables have the hits of the chunks one after the other, in the same order; the charge is stored in units of ten electrons. -/
theorem C136_content (erf : ℝ → ℝ) (u2 : ℝ → Nat) (s : Settings) (d : Nat → Draws) (nEvents chunkSize : Nat) (tables : List (List Row))
    (h : createDataAndStore erf u2 s d nEvents chunkSize = .ok tables) (i : Nat) (t : List Row) (ht : tables[i]? = some t) :
    ∃ chunks : List (List (Digit ℝ)),
      List.Forall₂ (fun (k : Nat) c => ∃ data, createData erf s (d k) ((k * min nEvents chunkSize : Nat) : Int) (min nEvents chunkSize) = .ok data ∧
        data[i]? = some c) (List.range chunks.length) chunks ∧
      nEvents ≤ chunks.length * min nEvents chunkSize ∧ chunks.length * min nEvents chunkSize < nEvents + min nEvents chunkSize ∧
      t.map (fun x => (x.event, x.column, x.row, x.charge * 10)) = chunks.flatten.map fun x => (x.event, u2 x.column, u2 x.row, x.charge) := by
  obtain ⟨h0, _, h2⟩ := store_ok h
  obtain ⟨parts, rfl, hp⟩ := h2 i t ht
  have hC : chunkOf nEvents chunkSize = min nEvents chunkSize := by
    unfold chunkOf
    split_ifs <;> omega
  rw [hC] at hp h0
  have hl := hp.length_eq
  rw [List.length_range] at hl
  rw [hl] at hp
  refine ⟨parts, hp, ?_, ?_, ?_⟩
  · rw [← hl]
    generalize min nEvents chunkSize = c at h0
    have := Nat.div_add_mod (nEvents + (c - 1)) c
    have h4 := Nat.mod_lt (nEvents + (c - 1)) h0
    rw [Nat.mul_comm] at this
    omega
  · rw [← hl]
    generalize min nEvents chunkSize = c at h0
    have := Nat.div_mul_le_self (nEvents + (c - 1)) c
    omega
  · rw [List.map_map]
    refine List.map_congr_left fun x _ => ?_
    simp [toRow]

/-! ### C137 -/

/-- C137: after `reset` there are six DUTs in distances of one centimeter, with values for all settings. -/
theorem C137_reset : reset.nDuts = 6 ∧ reset.zPositions = [0, 10000, 20000, 30000, 40000, 50000] ∧ Complete reset := by
  refine ⟨rfl, ?_, C137_std 6⟩
  show (List.range 6).map (fun i : Nat => (i : ℝ) * 10000) = _
  rw [show List.range 6 = [0, 1, 2, 3, 4, 5] from rfl]
  norm_num

/-! ### C138 -/

/-- C138: the number of tracks of an event is the number drawn for it, and zero if this is negative. -/
theorem C138_counts (start : Int) (counts : Nat → Int) (n i : Nat) (hi : i < n) :
    (((trackEvents start (trackCounts counts n)).count (start + i) : Nat) : Int) = max 0 (counts i) := by
  have h := (C138_tracks start (trackCounts counts n)).2.1 i (counts i).toNat (by
    unfold trackCounts
    rw [List.getElem?_map, List.getElem?_range hi]
    rfl)
  rw [h]
  omega

example : trackEvents 10 (trackCounts (fun i => 2 - (i : Int)) 4) = [10, 10, 11] := by decide +kernel

/-! ### C140 -/

/-- C140 for the simulated data of a chunk, without charge sharing: the hits of DUT `k` are the pixels (of the size of this DUT) that contain the
local positions of the tracks. -/
theorem C140_data (erf : ℝ → ℝ) (s : Settings) (d : Draws) (start : Int) (n : Nat) (data : List (List (Digit ℝ)))
    (h : createData erf s d start n = .ok data) (k : Nat) (ds : List (Digit ℝ)) (hk : data[k]? = some ds) (hd : s.discretization = true)
    (hc : s.chargeSharing = false) (hsh : s.shuffle = false) (z : ℝ) (o : ℝ × ℝ) (rot : ℝ × ℝ × ℝ) (px : ℝ × ℝ) (np : Int × Int) (hz : s.zPositions[k]? = some z)
    (ho : s.offsets[k]? = some o) (hr : s.rotations[k]? = some rot) (hpx : s.dutPixelSize[k]? = some px) (hnp : s.dutNPixel[k]? = some np)
    (hp0 : 0 < px.1 ∧ 0 < px.2) (heff : s.dutEfficiencies[k]? = some 1) (hthr : s.dutThreshold[k]? = some 0) :
    ∃ tracks hits l, createTracks s d.tracks (trackEvents start (trackCounts d.counts n)).length = .ok tracks ∧
      createHits s d.scatterU d.scatterV tracks = .ok hits ∧ hits[k]? = some l ∧
      ∃ pixels : List (Int × Int), List.Forall₂ (fun (q : Int × Vec3) p =>
          InPixel px.1 ((rotationMatrix rot.1 rot.2.1 rot.2.2).transpose.mulVec (q.2 - ![o.1, o.2, z]) 0) p.1 ∧
          InPixel px.2 ((rotationMatrix rot.1 rot.2.1 rot.2.2).transpose.mulVec (q.2 - ![o.1, o.2, z]) 1) p.2)
            ((trackEvents start (trackCounts d.counts n)).zip l) pixels ∧
        ds.map (fun x => (x.event, x.column, x.row)) =
          ((((trackEvents start (trackCounts d.counts n)).zip l).zip pixels).filter fun q =>
            decide ((1 ≤ q.2.1 ∧ q.2.1 ≤ np.1) ∧ 1 ≤ q.2.2 ∧ q.2.2 ≤ np.2)).map fun q => (q.1.1, (q.2.1 : ℝ), (q.2.2 : ℝ)) := by
  obtain ⟨tracks, hits, p, l, r, w, b, e1, e2, e3, e4, e5, e6, e7⟩ := createData_get h k ds hk
  obtain ⟨g1, g2, g3, g4, g5, g6, g7⟩ := responseAt_ok e6
  have hshuf : shuffleAll s.shuffle d.shuffle (trackEvents start (trackCounts d.counts n)) (trackMultiplicity (trackCounts d.counts n)) hits = hits := by
    unfold shuffleAll
    rw [hsh]
    rfl
  rw [hshuf] at e5
  refine ⟨tracks, hits, l, e1, e2, e5, ?_⟩
  rw [hthr] at g1
  rw [heff] at g5
  have g3' : px = (r.sizeX, r.sizeY) := by rw [hpx] at g3; exact Option.some.inj g3
  have g4' : np = (r.columns, r.rows) := by rw [hnp] at g4; exact Option.some.inj g4
  subst g3'
  subst g4'
  rw [hd, hc] at e7
  obtain ⟨pixels, l', h1, h2, h3⟩ := C140_pixels (1e-2 : ℝ) (sharingFraction erf r.sizeX r.sizeY w s.temperature b) r (d.dut k)
    (((trackEvents start (trackCounts d.counts n)).zip l).map fun q => ⟨q.1, toLocal p q.2 0, toLocal p q.2 1⟩) hp0.1 hp0.2
    (Option.some.inj g5).le (Option.some.inj g1).symm
  rw [e7] at h1
  cases h1
  have hp : p = ⟨o.1, o.2, z, rot.1, rot.2.1, rot.2.2, p.material⟩ := by
    unfold planeAt at e3
    rw [ho, hr] at e3
    split at e3
    · next o' r' m' a1 a2 a3 =>
      cases a1
      cases a2
      rw [hz] at e4
      rw [Option.some.inj e4]
      have e8 := Except.ok.inj e3
      rw [← e8]
    · cases e3
  refine ⟨pixels, ?_, ?_⟩
  · rw [List.forall₂_map_left_iff] at h2
    refine h2.imp fun q pp hq => ?_
    dsimp only at hq
    rw [hp, toLocal_eq] at hq
    exact hq
  · rw [h3, List.zip_map_left, List.filter_map, List.map_map]
    rfl

/-- Such data exist: the data of one DUT with one track in each event. -/
example (erf : ℝ → ℝ) : ∃ ds, createData erf simple oneTrack 7 3 = .ok [ds] ∧ simple.discretization = true ∧ simple.chargeSharing = false ∧
    simple.shuffle = false ∧ simple.dutPixelSize[0]? = some (50, 50) ∧ simple.dutEfficiencies[0]? = some 1 ∧ simple.dutThreshold[0]? = some 0 := by
  obtain ⟨ds, h, _⟩ := simple_data erf 7 3
  exact ⟨ds, h, rfl, rfl, rfl, rfl, rfl, rfl⟩

/-! ### C141 -/

/-- C141: theta is the absolute value of an angle with the mean and the sigma in mrad, if this is at most pi. -/
theorem C141_theta (s : Settings) (g : TrackRandom) (n : Nat) (tracks : List Track) (h : createTracks s g n = .ok tracks) (i : Nat) (t : Track)
    (ht : tracks[i]? = some t) (hpi : |(s.beamAngle + s.beamAngleSigma * g.theta i) / 1000| ≤ Real.pi) :
    t.theta = |(s.beamAngle + s.beamAngleSigma * g.theta i) / 1000| := by
  unfold createTracks at h
  split_ifs at h with h0
  push Not at h0
  split at h
  · cases h
  · next thetas e =>
    cases h
    rw [List.getElem?_map, List.getElem?_zipIdx, Option.map_map] at ht
    obtain ⟨a, ha, rfl⟩ := Option.map_eq_some_iff.mp ht
    have hval : trackTheta s g i = |(s.beamAngle + s.beamAngleSigma * g.theta i) / 1000| := by
      unfold trackTheta
      split_ifs with h1
      · congr 1
        ring
      · rw [not_not.mp h1, zero_mul, add_zero, abs_of_nonneg h0.2]
    have hi : i < n := by
      have h1 := (List.getElem?_eq_some_iff.mp ha).1
      rw [(thetaLoop_ok e).1, List.length_map, List.length_range] at h1
      exact h1
    have := thetaLoop_keep e i _ (by rw [List.getElem?_map, List.getElem?_range hi]; rfl) (by rw [hval]; exact abs_nonneg _) (by rw [hval]; exact hpi)
    rw [ha] at this
    rw [← hval]
    exact Option.some.inj this

example (g : TrackRandom) : createTracks simple g 3 = .ok [⟨25, 25, 0, 0⟩, ⟨25, 25, 0, 0⟩, ⟨25, 25, 0, 0⟩] ∧
    |(simple.beamAngle + simple.beamAngleSigma * g.theta 0) / 1000| ≤ Real.pi := by
  refine ⟨simple_tracks g 3, ?_⟩
  simp [simple, Real.pi_pos.le]

/-! ### C142 -/

/-- C142 with material: each track is a path of straight lines through its hits. At each DUT with material, the direction changes by the scattering angle
with the sigma of the Highland formula. -/
theorem C142_scattering (s : Settings) (u v : Nat → Nat → ℝ) (tracks : List Track) (hits : List (List Vec3)) (h : createHits s u v tracks = .ok hits)
    (j : Nat) (t : Track) (ht : tracks[j]? = some t) :
    ∃ path : List Vec3, path.map some = hits.map (fun l => l[j]?) ∧
      Path s.beamMomentum (fun k => u k j) (fun k => v k j) 0 (s.dutMaterialBudget.take s.zPositions.length) ![t.x, t.y, 0] (direction t) path := by
  unfold createHits at h
  split at h
  · cases h
  · next ps e =>
    rw [← planes_material e]
    exact hitLoop_path (by rw [List.length_map, List.length_map]) h j _ (t.phi, t.theta) (by rw [List.getElem?_map, ht]; rfl)
      (by rw [List.getElem?_map, ht]; rfl)

/-- Hits exist. -/
example (u v : Nat → Nat → ℝ) : createHits simple u v (List.replicate 3 ⟨25, 25, 0, 0⟩) = .ok [List.replicate 3 ![25, 25, 0]] :=
  simple_hits u v 3

end BTA.Sim.Props
