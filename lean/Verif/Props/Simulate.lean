import Verif.Lemmas.SimulateStore
import Verif.Props.Digitize
/-
C135, C136, C137, C141, C142: simulated data, tools/simulate_data.py.
-/
namespace BTA.Sim.Props
open BTA.Sim.Spec BTA.Geo BTA.Spec

/-! ### C135 -/

theorem chunks_of_dvd {n c : Nat} (hc : 0 < c) (h : c ∣ n) : (n + (c - 1)) / c * c = n := by
  obtain ⟨m, rfl⟩ := h
  have : (c * m + (c - 1)) / c = m := by
    rw [Nat.mul_add_div hc, Nat.div_eq_of_lt (by omega), Nat.add_zero]
  rw [this, Nat.mul_comm]

/-- C135: all event numbers of the hit tables are below `n_events`, if the chunk size divides `n_events` or is larger. -/
theorem C135_events_partial (erf : ℝ → ℝ) (u2 : ℝ → Nat) (s : Settings) (d : Nat → Draws) (nEvents chunkSize : Nat) (tables : List (List Row))
    (h : createDataAndStore erf u2 s d nEvents chunkSize = .ok tables) (hdiv : chunkSize ∣ nEvents ∨ nEvents < chunkSize) :
    tables.length = s.nDuts ∧ ∀ t ∈ tables, ∀ row ∈ t, 0 ≤ row.event ∧ row.event < nEvents := by
  obtain ⟨h0, h1, _⟩ := store_ok h
  refine ⟨h1, fun t ht row hr => ?_⟩
  obtain ⟨i, hi⟩ := List.mem_iff_getElem?.mp ht
  have := (store_rows h i t hi).1 row hr
  rw [chunks_of_dvd h0] at this
  · exact this
  · unfold chunkOf
    split_ifs with h2
    · exact dvd_refl _
    · rcases hdiv with h3 | h3
      · exact h3
      · exact absurd h3 h2

/-- One sensor at z = 0 in a beam without any spread, one track in the middle of the first pixel. -/
noncomputable def simple : Settings where
  nDuts := 1
  zPositions := [0]
  offsets := [(0, 0)]
  rotations := [(0, 0, 0)]
  temperature := 300
  beamPosition := (25, 25)
  beamPositionSigma := (0, 0)
  beamAngle := 0
  beamAngleSigma := 0
  beamDirection := (0, 0)
  beamMomentum := 3200
  dutBias := [50]
  dutThickness := [100]
  dutThreshold := [0]
  dutNoise := [0]
  dutPixelSize := [(50, 50)]
  dutNPixel := [(1000, 1000)]
  dutEfficiencies := [1]
  dutMaterialBudget := [0]
  chargeSharing := false
  shuffle := false
  sigmaCc := 1.35
  discretization := true

/-- Random numbers with one track in each event. -/
def oneTrack : Draws where
  counts := fun _ => 1
  tracks := ⟨fun _ => 0, fun _ => 0, fun _ => 0, fun _ _ => 0, fun _ _ => 0, fun _ => 0⟩
  scatterU := fun _ _ => 0
  scatterV := fun _ _ => 0
  shuffle := fun _ _ => id
  dut := fun _ => ⟨fun _ => 1000, fun _ => 0, id⟩

theorem simple_tracks (g : TrackRandom) (n : Nat) : createTracks simple g n = .ok (List.replicate n ⟨25, 25, 0, 0⟩) := by
  unfold createTracks
  have h1 : simple.beamAngle / 1000 = 0 := by simp [simple]
  rw [h1, if_neg (by
    push Not
    exact ⟨Real.pi_pos.le, le_refl _⟩)]
  have hx : ∀ i, trackX simple g i = 25 := fun i => by simp [trackX, simple]
  have hy : ∀ i, trackY simple g i = 25 := fun i => by simp [trackY, simple]
  have hp : ∀ i, trackPhi simple g i = 0 := fun i => by simp [trackPhi, simple]
  have ht : (List.range n).map (trackTheta simple g) = List.replicate n 0 := by
    rw [List.eq_replicate_iff]
    refine ⟨by simp, fun b hb => ?_⟩
    obtain ⟨i, _, rfl⟩ := List.mem_map.mp hb
    simp [trackTheta, simple]
  have hl : thetaLoop simple g 1000 0 (List.replicate n 0) = .ok (List.replicate n 0) := by
    unfold thetaLoop
    rw [if_neg]
    rw [Bool.or_eq_true, not_or, List.any_eq_true, List.any_eq_true]
    push Not
    constructor
    · intro t ht
      rw [List.eq_of_mem_replicate ht]
      simpa using Real.pi_pos.le
    · intro t ht
      rw [List.eq_of_mem_replicate ht]
      simp
  rw [ht, hl]
  dsimp only
  congr 1
  rw [List.eq_replicate_iff]
  refine ⟨by simp, fun b hb => ?_⟩
  obtain ⟨p, hp', rfl⟩ := List.mem_map.mp hb
  have := List.mem_map_of_mem (f := Prod.fst) hp'
  rw [List.zipIdx_map_fst] at this
  rw [hx, hy, hp, List.eq_of_mem_replicate this]

theorem simple_planes : planes simple 0 simple.zPositions = .ok [⟨0, 0, 0, 0, 0, 0, 0⟩] := rfl

theorem rotation_zero : rotationMatrix 0 0 0 = 1 := by
  unfold rotationMatrix rotX rotY rotZ
  ext i j
  fin_cases i <;> fin_cases j <;> simp [Matrix.mul_apply, Fin.sum_univ_succ]

theorem simple_hits (u v : Nat → Nat → ℝ) (n : Nat) :
    createHits simple u v (List.replicate n ⟨25, 25, 0, 0⟩) = .ok [List.replicate n ![25, 25, 0]] := by
  unfold createHits
  rw [simple_planes]
  dsimp only
  rw [List.map_replicate, List.map_replicate]
  have hdir : directions (List.replicate n ((0 : ℝ), (0 : ℝ))) = .ok (List.replicate n ![0, 0, 1]) := by
    unfold directions sphericalToCartesian
    rw [List.map_replicate]
    have hno : ∀ (P : ℝ × ℝ × ℝ → Bool), P (0, 0, 1) = false → (List.replicate n ((0 : ℝ), (0 : ℝ), (1 : ℝ))).any P = false := by
      intro P hP
      rw [List.any_eq_false]
      intro x hx
      rw [List.eq_of_mem_replicate hx, hP]
      exact Bool.false_ne_true
    rw [hno _ (by simp), hno _ (by simp), hno _ (by simpa using Real.pi_pos), hno _ (by simp), hno _ (by simpa using Real.pi_pos)]
    simp
  have hpl : planeHits ⟨0, 0, 0, 0, 0, 0, 0⟩ (List.replicate n ![25, 25, 0]) (List.replicate n ![0, 0, 1]) = .ok (List.replicate n ![25, 25, 0]) := by
    unfold planeHits intersectPlane
    have hn : planeNormalOf ⟨0, 0, 0, 0, 0, 0, 0⟩ = ![0, 0, 1] := by
      unfold planeNormalOf
      dsimp only
      rw [rotation_zero]
      ext i
      fin_cases i <;> simp
    rw [hn, if_neg]
    · dsimp only
      congr 1
      rw [List.zip_replicate', List.map_replicate]
      congr 1
      ext i
      fin_cases i <;> simp [dot]
    · rw [List.any_eq_true]
      rintro ⟨x, hx, h⟩
      rw [List.zip_replicate'] at hx
      rw [List.eq_of_mem_replicate hx] at h
      simp [dot] at h
  unfold hitLoop
  rw [hdir]
  dsimp only
  rw [hpl]
  dsimp only
  rw [if_neg (by rintro ⟨h, _⟩; exact h rfl)]
  dsimp only
  unfold hitLoop
  rfl

/-- With these settings there is a hit in each event of the chunk. -/
theorem simple_data (erf : ℝ → ℝ) (start : Int) (n : Nat) :
    ∃ ds, createData erf simple oneTrack start n = .ok [ds] ∧ ∀ i : Nat, i < n → start + i ∈ ds.map Digit.event := by
  have hcounts : trackCounts oneTrack.counts n = List.replicate n 1 := by
    unfold trackCounts oneTrack
    rw [List.eq_replicate_iff]
    exact ⟨by simp, fun b hb => by
      obtain ⟨i, _, rfl⟩ := List.mem_map.mp hb
      rfl⟩
  unfold createData
  dsimp only
  rw [hcounts, simple_tracks]
  dsimp only
  rw [simple_hits, simple_planes]
  dsimp only
  have hl : (trackEvents start (List.replicate n 1)).length = n := by
    rw [eventsFrom_eq, eventsFrom_length]
    simp
  rw [hl]
  have hsh : ∀ (f : Nat → Nat → List Nat → List Nat) (e : List Int) (m : List Nat) (h : List (List Vec3)), shuffleAll simple.shuffle f e m h = h :=
    fun _ _ _ _ => rfl
  rw [hsh]
  set r : Response ℝ := ⟨0, 0, 50, 50, 1000, 1000, 1⟩ with hr
  have hresp : responseAt simple 0 = .ok (r, (100, 50)) := rfl
  set hits : List (TrackHit ℝ) := ((trackEvents start (List.replicate n 1)).zip (List.replicate n ![25, 25, 0])).map fun q =>
    (⟨q.1, toLocal ⟨0, 0, 0, 0, 0, 0, 0⟩ q.2 0, toLocal ⟨0, 0, 0, 0, 0, 0, 0⟩ q.2 1⟩ : TrackHit ℝ) with hhits
  obtain ⟨pixels, l, h1, h2, h3⟩ := C140_pixels (1e-2 : ℝ) (sharingFraction erf r.sizeX r.sizeY 100 simple.temperature 50) r (oneTrack.dut 0) hits
    (by norm_num [hr]) (by norm_num [hr]) (le_refl _) rfl
  refine ⟨l, ?_, ?_⟩
  · unfold digitizeAll
    rw [hresp]
    dsimp only
    have : simple.discretization = true := rfl
    rw [this, show simple.chargeSharing = false from rfl, h1]
    rfl
  · have hloc : ∀ t ∈ hits, t.x = 25 ∧ t.y = 25 := by
      intro t ht
      obtain ⟨q, hq, rfl⟩ := List.mem_map.mp ht
      have := List.eq_of_mem_replicate (List.of_mem_zip hq).2
      dsimp only
      rw [this, toLocal_eq]
      dsimp only
      rw [rotation_zero, Matrix.transpose_one, Matrix.one_mulVec]
      constructor <;> simp
    have hone : ∀ x c, x = (25 : ℝ) → InPixel (50 : ℝ) x c → c = 1 := by
      intro x c hx hc
      refine C140_unique (by norm_num) (x := x) (c := 1) ?_ hc
      unfold StrictlyInPixel
      rw [hx]
      norm_num
    have hev : hits.map TrackHit.event = trackEvents start (List.replicate n 1) := by
      rw [hhits, List.map_map]
      show ((trackEvents start (List.replicate n 1)).zip (List.replicate n ![25, 25, 0])).map Prod.fst = _
      rw [List.map_fst_zip]
      rw [hl, List.length_replicate]
    intro i hi
    have hmem : start + i ∈ trackEvents start (List.replicate n 1) := by
      have := (C138_tracks start (List.replicate n 1)).2.1 i 1 (by rw [List.getElem?_replicate, if_pos hi])
      exact List.count_pos_iff.mp (by omega)
    rw [← hev] at hmem
    obtain ⟨t, ht, hte⟩ := List.mem_map.mp hmem
    obtain ⟨p, hp1, hp2, hp3⟩ := forall2_get h2 ht
    have hp : p = (1, 1) := Prod.ext (hone _ _ (hloc t ht).1 hp2.1) (hone _ _ (hloc t ht).2 hp2.2)
    have h4 : (t.event, ((p.1 : Int) : ℝ), ((p.2 : Int) : ℝ)) ∈ l.map fun d => (d.event, d.column, d.row) := by
      rw [h3]
      refine List.mem_map.mpr ⟨(t, p), List.mem_filter.mpr ⟨hp3, ?_⟩, rfl⟩
      rw [hp]
      simp [hr]
    obtain ⟨dg, hd, he⟩ := List.mem_map.mp h4
    exact List.mem_map.mpr ⟨dg, hd, by rw [(Prod.mk.inj he).1, hte]⟩

theorem simple_store (erf : ℝ → ℝ) (u2 : ℝ → Nat) (chunk : Nat) : ∀ (ks : List Nat) (t : List Row), ∃ t', storeLoop erf u2 simple (fun _ => oneTrack) chunk ks [t] =
    .ok [t'] ∧ (∀ e ∈ t.map Row.event, e ∈ t'.map Row.event) ∧ ∀ k ∈ ks, ∀ i < chunk, (((k * chunk + i : Nat) : Int)) ∈ t'.map Row.event := by
  intro ks
  induction ks with
  | nil =>
    intro t
    exact ⟨t, rfl, fun _ h => h, fun k hk => by cases hk⟩
  | cons k ks ih =>
    intro t
    obtain ⟨ds, h1, h2⟩ := simple_data erf ((k * chunk : Nat) : Int) chunk
    obtain ⟨t', h3, h4, h5⟩ := ih (t ++ ds.map (toRow u2))
    refine ⟨t', ?_, ?_, ?_⟩
    · unfold storeLoop
      rw [h1]
      exact h3
    · intro e he
      refine h4 e ?_
      rw [List.map_append]
      exact List.mem_append_left _ he
    · intro k' hk' i hi
      rcases List.mem_cons.mp hk' with rfl | hk'
      · refine h4 _ ?_
        rw [List.map_append, List.map_map]
        refine List.mem_append_right _ ?_
        have := h2 i hi
        push_cast at this ⊢
        exact this
      · exact h5 k' hk' i hi

/-- C135 is false for all other chunk sizes: the last chunk has `chunk_size` events, too, so there are hits with event numbers from `n_events` on. -/
theorem C135_too_many (erf : ℝ → ℝ) (u2 : ℝ → Nat) (nEvents chunkSize : Nat) (h0 : 0 < chunkSize) (h1 : chunkSize < nEvents) (h2 : ¬ chunkSize ∣ nEvents) :
    ∃ table, createDataAndStore erf u2 simple (fun _ => oneTrack) nEvents chunkSize = .ok [table] ∧
      ∃ row ∈ table, (nEvents : Int) ≤ row.event := by
  unfold createDataAndStore
  dsimp only
  rw [if_neg (show ¬ nEvents < chunkSize by omega), if_neg (show ¬ chunkSize = 0 by omega)]
  obtain ⟨t', h3, _, h5⟩ := simple_store erf u2 chunkSize (List.range ((nEvents + (chunkSize - 1)) / chunkSize)) []
  refine ⟨t', h3, ?_⟩
  have hq := Nat.div_add_mod nEvents chunkSize
  have hm : 0 < nEvents % chunkSize := Nat.pos_of_ne_zero fun h => h2 (Nat.dvd_of_mod_eq_zero h)
  have hlt := Nat.mod_lt nEvents h0
  have hnum : (nEvents + (chunkSize - 1)) / chunkSize = nEvents / chunkSize + 1 := by
    have : nEvents + (chunkSize - 1) = chunkSize * (nEvents / chunkSize + 1) + (nEvents % chunkSize - 1) := by
      rw [Nat.mul_add]
      omega
    rw [this, Nat.mul_add_div h0, Nat.div_eq_of_lt (show nEvents % chunkSize - 1 < chunkSize by omega), Nat.add_zero]
  have := h5 (nEvents / chunkSize) (by rw [List.mem_range, hnum]; omega) (nEvents % chunkSize) hlt
  obtain ⟨row, hr, he⟩ := List.mem_map.mp this
  refine ⟨row, hr, ?_⟩
  rw [he, Nat.mul_comm, hq]

/-- C135: no events cannot be simulated. -/
theorem C135_no_events (erf : ℝ → ℝ) (u2 : ℝ → Nat) (s : Settings) (d : Nat → Draws) (chunkSize : Nat) :
    createDataAndStore erf u2 s d 0 chunkSize = .error .zeroStep := by
  unfold createDataAndStore
  dsimp only
  rw [if_pos]
  split_ifs with h
  · rfl
  · omega

/-- Both cases occur: 10 events in chunks of 5, and in chunks of 4. -/
example (erf : ℝ → ℝ) (u2 : ℝ → Nat) : (∃ tables, createDataAndStore erf u2 simple (fun _ => oneTrack) 10 5 = .ok tables) ∧
    ∃ table, createDataAndStore erf u2 simple (fun _ => oneTrack) 10 4 = .ok [table] ∧ ∃ row ∈ table, (10 : Int) ≤ row.event := by
  constructor
  · obtain ⟨t, h, _⟩ := simple_store erf u2 5 (List.range 2) []
    exact ⟨[t], h⟩
  · exact C135_too_many erf u2 10 4 (by norm_num) (by norm_num) (by decide)

/-! ### C136 -/

/-- C136: the hit tables are ordered in the event number, and with discretization column and row are those of pixels of the DUT, for all
random numbers. -/
theorem C136_tables (erf : ℝ → ℝ) (u2 : ℝ → Nat) (hu : ∀ a : Int, 0 ≤ a → a < 65536 → ((u2 (a : ℝ) : Nat) : Int) = a) (s : Settings) (d : Nat → Draws)
    (nEvents chunkSize : Nat) (tables : List (List Row)) (h : createDataAndStore erf u2 s d nEvents chunkSize = .ok tables) (i : Nat) (t : List Row)
    (ht : tables[i]? = some t) :
    (t.map Row.event).Pairwise (· ≤ ·) ∧ (s.discretization = true → ∀ c : Int × Int, s.dutNPixel[i]? = some c → c.1 < 65536 → c.2 < 65536 →
      ∀ row ∈ t, 1 ≤ row.column ∧ (row.column : Int) ≤ c.1 ∧ 1 ≤ row.row ∧ (row.row : Int) ≤ c.2) := by
  obtain ⟨_, h2, h3⟩ := store_rows h i t ht
  refine ⟨h2, fun hd c hc h4 h5 row hr => ?_⟩
  obtain ⟨c', hc', ⟨a, ha, ha1, ha2⟩, b, hb, hb1, hb2⟩ := h3 hd row hr
  rw [hc] at hc'
  cases hc'
  have e1 := hu a (by omega) (by omega)
  have e2 := hu b (by omega) (by omega)
  rw [← ha] at e1
  rw [← hb] at e2
  omega

/-- A conversion like that of numpy. -/
example : ∀ a : Int, 0 ≤ a → a < 65536 → (((fun x : ℝ => ⌊x⌋.toNat % 65536) (a : ℝ) : Nat) : Int) = a := by
  intro a h0 h1
  dsimp only
  rw [Int.floor_intCast]
  omega

/-! ### C137 -/

/-- C137: with a smaller number of DUTs all other settings are kept, and each of the DUTs has all settings. -/
theorem C137_decrease_partial (s : Settings) (value : Nat) (h : value ≤ s.nDuts) (hc : Complete s) :
    setNDuts value s = { s with nDuts := value } ∧ Complete (setNDuts value s) := by
  have e : setNDuts value s = { s with nDuts := value } := by
    unfold setNDuts
    rw [if_neg (by omega)]
  refine ⟨e, ?_⟩
  rw [e]
  unfold Complete at hc ⊢
  dsimp only
  omega

/-- C137: the standard settings are complete. -/
theorem C137_std (n : Nat) : Complete (stdSettings n) := by
  unfold Complete stdSettings
  simp

theorem planes_count (s : Settings) : ∀ (value : Nat), s.nDuts < value → (setNDuts value s).zPositions.length = s.nDuts ∧ (setNDuts value s).nDuts = value := by
  intro value h
  unfold setNDuts
  rw [if_pos h]
  simp [stdSettings]

/-- C137 is false for a larger number of DUTs: the lists of the settings are made for the old number, and simulating data always raises. -/
theorem C137_increase (erf : ℝ → ℝ) (u2 : ℝ → Nat) (s : Settings) (value : Nat) (h : s.nDuts < value) (d : Nat → Draws) (nEvents chunkSize : Nat)
    (hn : 0 < nEvents) (hc : 0 < chunkSize) :
    ¬ Complete (setNDuts value s) ∧ ∀ tables, createDataAndStore erf u2 (setNDuts value s) d nEvents chunkSize ≠ .ok tables := by
  obtain ⟨h1, h2⟩ := planes_count s value h
  constructor
  · intro hcon
    have := hcon.1
    omega
  · intro tables hok
    obtain ⟨h0, h3, h4⟩ := store_ok hok
    rw [h2] at h3
    obtain ⟨parts, _, hp⟩ := h4 s.nDuts _ (List.getElem?_eq_getElem (by omega))
    set C := chunkOf nEvents chunkSize
    have hN : 0 < (nEvents + (C - 1)) / C := Nat.div_pos (by omega) h0
    have hlen := hp.length_eq
    rw [List.length_range] at hlen
    obtain ⟨part, hpart⟩ := List.exists_mem_of_length_pos (l := parts) (by omega)
    obtain ⟨k, _, data, e1, e2⟩ := forall2_mem_right hp hpart
    have h5 := (createData_ok e1).1
    have h6 := (List.getElem?_eq_some_iff.mp e2).1
    omega

/-- Seven instead of the six standard DUTs. -/
example : reset.nDuts < 7 := by
  unfold reset stdSettings
  norm_num

/-! ### C139 -/

/-- C139: `digitization_sigma_cc`, the correction of the size of the charge cloud, has no effect on the data. -/
theorem C139_sigma_cc (erf : ℝ → ℝ) (u2 : ℝ → Nat) (s : Settings) (c : ℝ) (d : Nat → Draws) (nEvents chunkSize : Nat) :
    createDataAndStore erf u2 { s with sigmaCc := c } d nEvents chunkSize = createDataAndStore erf u2 s d nEvents chunkSize := by
  have h1 : ∀ (zs : List ℝ) (i : Nat), planes { s with sigmaCc := c } i zs = planes s i zs := by
    intro zs
    induction zs with
    | nil => intro i; rfl
    | cons z zs ih =>
      intro i
      unfold planes
      rw [ih]
      rfl
  have h2 : ∀ (g : Nat → Random ℝ) (events : List Int) (ps : List Plane) (i : Nat) (hits : List (List Vec3)),
      digitizeAll erf { s with sigmaCc := c } g events i ps hits = digitizeAll erf s g events i ps hits := by
    intro g events ps
    induction ps with
    | nil => intro i hits; cases hits <;> rfl
    | cons p ps ih =>
      intro i hits
      cases hits with
      | nil => rfl
      | cons h hits =>
        unfold digitizeAll
        rw [ih]
        rfl
  have h3 : ∀ (g : TrackRandom) (left round : Nat) (thetas : List ℝ), thetaLoop { s with sigmaCc := c } g left round thetas = thetaLoop s g left round thetas := by
    intro g left
    induction left with
    | zero => intro round thetas; unfold thetaLoop; rfl
    | succ k ih =>
      intro round thetas
      unfold thetaLoop
      dsimp only
      rw [ih]
      rfl
  have h4 : ∀ (g : TrackRandom) (n : Nat), createTracks { s with sigmaCc := c } g n = createTracks s g n := by
    intro g n
    unfold createTracks
    rw [h3]
    rfl
  have h5 : ∀ (dr : Draws) (start : Int) (n : Nat), createData erf { s with sigmaCc := c } dr start n = createData erf s dr start n := by
    intro dr start n
    unfold createData createHits
    simp only [h1, h2, h4]
  have h6 : ∀ (chunk : Nat) (ks : List Nat) (t : List (List Row)), storeLoop erf u2 { s with sigmaCc := c } d chunk ks t = storeLoop erf u2 s d chunk ks t := by
    intro chunk ks
    induction ks with
    | nil => intro t; rfl
    | cons k ks ih =>
      intro t
      unfold storeLoop
      simp only [h5, ih]
  unfold createDataAndStore
  simp only [h6]

/-! ### C141 -/

/-- C141: positions and angles of the tracks. The position in x has the mean and sigma given, theta is between 0 and pi, and phi in the given
range. The position in y has the sigma given, if it is the one of x or zero. -/
theorem C141_beam_partial (s : Settings) (g : TrackRandom) (n : Nat) (tracks : List Track) (h : createTracks s g n = .ok tracks) :
    tracks.length = n ∧ ∀ (i : Nat) (t : Track), tracks[i]? = some t →
      t.x = s.beamPosition.1 + s.beamPositionSigma.1 * g.x i ∧
      (s.beamPositionSigma.2 = s.beamPositionSigma.1 ∨ s.beamPositionSigma.2 = 0 → t.y = s.beamPosition.2 + s.beamPositionSigma.2 * g.y i) ∧
      (0 ≤ t.theta ∧ t.theta ≤ Real.pi) ∧
      (s.beamDirection.1 ≤ s.beamDirection.2 → 0 ≤ g.phi i → g.phi i ≤ 1 → s.beamDirection.1 ≤ t.phi ∧ t.phi ≤ s.beamDirection.2) := by
  obtain ⟨h1, h2⟩ := createTracks_ok h
  refine ⟨h1, fun i t ht => ?_⟩
  obtain ⟨a1, a2, a3, a4, a5⟩ := h2 i t ht
  refine ⟨?_, ?_, ⟨a4, a5⟩, ?_⟩
  · rw [a1]
    unfold trackX
    split_ifs with h3
    · rfl
    · rw [not_not] at h3
      rw [h3, zero_mul, add_zero]
  · intro h3
    rw [a2]
    unfold trackY
    split_ifs with h4
    · rcases h3 with h3 | h3
      · rw [h3]
      · exact absurd h3 h4
    · rw [not_not] at h4
      rw [h4, zero_mul, add_zero]
  · intro h3 h4 h5
    rw [a3]
    unfold trackPhi
    split_ifs with h6
    · constructor <;> nlinarith
    · rw [not_not] at h6
      exact ⟨le_refl _, h6.le⟩

/-- C141 is false for y: the sigma of x is used. All tracks are created with it, whatever the sigma of y is (if it is not zero). -/
theorem C141_sigma_y (s : Settings) (g : TrackRandom) (n : Nat) (tracks : List Track) (h : createTracks s g n = .ok tracks)
    (hs : s.beamPositionSigma.2 ≠ 0) (hne : s.beamPositionSigma.2 ≠ s.beamPositionSigma.1) (i : Nat) (t : Track) (ht : tracks[i]? = some t) :
    t.y = s.beamPosition.2 + s.beamPositionSigma.1 * g.y i ∧ (g.y i ≠ 0 → t.y ≠ s.beamPosition.2 + s.beamPositionSigma.2 * g.y i) := by
  obtain ⟨_, a2, _⟩ := (createTracks_ok h).2 i t ht
  unfold trackY at a2
  rw [if_pos hs] at a2
  refine ⟨a2, fun hg hcon => ?_⟩
  rw [a2] at hcon
  exact hne (mul_right_cancel₀ hg (add_left_cancel hcon)).symm

/-- Tracks are created for the simple settings and for those with a different sigma in y. -/
example (g : TrackRandom) : createTracks simple g 3 = .ok [⟨25, 25, 0, 0⟩, ⟨25, 25, 0, 0⟩, ⟨25, 25, 0, 0⟩] := simple_tracks g 3

/-! ### C142 -/

/-- C142: each track makes a hit on each DUT plane (its local z is zero); without material, the hits are on the straight line of the track. -/
theorem C142_hits (s : Settings) (u v : Nat → Nat → ℝ) (tracks : List Track) (hits : List (List Vec3)) (h : createHits s u v tracks = .ok hits) :
    hits.length = s.zPositions.length ∧ ∀ (k : Nat) (l : List Vec3), hits[k]? = some l → l.length = tracks.length ∧
      (∃ z o r, s.zPositions[k]? = some z ∧ s.offsets[k]? = some o ∧ s.rotations[k]? = some r ∧
        ∀ q ∈ l, ((rotationMatrix r.1 r.2.1 r.2.2).transpose.mulVec (q - ![o.1, o.2, z])) 2 = 0) ∧
      ((∀ m ∈ s.dutMaterialBudget, m = 0) → ∀ (j : Nat) (t : Track) (q : Vec3), tracks[j]? = some t → l[j]? = some q →
        OnLine ![t.x, t.y, 0] (direction t) q) := by
  unfold createHits at h
  split at h
  · cases h
  · next ps e =>
    have hl : (tracks.map fun t => (![t.x, t.y, 0] : Vec3)).length = (tracks.map fun t => (t.phi, t.theta)).length := by
      rw [List.length_map, List.length_map]
    obtain ⟨a1, a2⟩ := hitLoop_planes hl h
    refine ⟨by rw [a1, planes_length e], fun k l hk => ?_⟩
    have hkl := (List.getElem?_eq_some_iff.mp hk).1
    have hpk : ps[k]? = some (ps[k]'(by omega)) := List.getElem?_eq_getElem (by omega)
    obtain ⟨b1, b2⟩ := a2 k _ l hpk hk
    refine ⟨by rw [b1, List.length_map], ?_, ?_⟩
    · obtain ⟨z, o, r, m, c1, c2, c3, c4, c5⟩ := planes_get e k _ hpk
      rw [Nat.zero_add] at c2 c3
      refine ⟨z, o, r, c1, c2, c3, fun q hq => ?_⟩
      have := b2 q hq
      rw [toLocal_eq, c5] at this
      exact this
    · intro hm j t q ht hq
      have hmat : ∀ p ∈ ps, p.material = 0 := by
        intro p hp
        obtain ⟨k', hk'⟩ := List.mem_iff_getElem?.mp hp
        obtain ⟨z, o, r, m, c1, c2, c3, c4, c5⟩ := planes_get e k' _ hk'
        rw [c5]
        exact hm m (List.mem_of_getElem? c4)
      have := hitLoop_lines hl hmat h k j ![t.x, t.y, 0] (t.phi, t.theta) l q (by rw [List.getElem?_map, ht]; rfl)
        (by rw [List.getElem?_map, ht]; rfl) hk hq
      exact this

/-- C142: if one track is parallel to the first DUT, no hits are created at all. (The documentation of the function says that such hits are NaN.) -/
theorem C142_parallel (s : Settings) (u v : Nat → Nat → ℝ) (tracks : List Track) (z : ℝ) (zs : List ℝ) (hz : s.zPositions = z :: zs)
    (o : ℝ × ℝ) (r : ℝ × ℝ × ℝ) (ho : s.offsets[0]? = some o) (hr : s.rotations[0]? = some r) (t : Track) (ht : t ∈ tracks)
    (hpar : dot (fun i => rotationMatrix r.1 r.2.1 r.2.2 i 2) (direction t) = 0) : ∃ e, createHits s u v tracks = .error e := by
  cases hok : createHits s u v tracks with
  | error e => exact ⟨e, rfl⟩
  | ok out =>
    exfalso
    unfold createHits at hok
    split at hok
    · cases hok
    · next ps e =>
      rw [hz] at e
      cases ps with
      | nil =>
        have := planes_length e
        simp at this
      | cons p ps =>
        obtain ⟨z', o', r', m, c1, c2, c3, c4, c5⟩ := planes_get e 0 p rfl
        rw [Nat.zero_add, ho] at c2
        rw [Nat.zero_add, hr] at c3
        cases c2
        cases c3
        unfold hitLoop at hok
        split at hok
        · cases hok
        · next dirs e1 =>
          split at hok
          · cases hok
          · next hits e2 =>
            unfold planeHits at e2
            split at e2
            · cases e2
            · next l e3 =>
              have hn := (BTA.Props.C33_raises_iff ((tracks.map fun t => (![t.x, t.y, 0] : Vec3)).zip dirs) ![p.x, p.y, p.z] (planeNormalOf p)).mpr (by
                rw [directions_ok e1, List.map_map]
                refine ⟨(![t.x, t.y, 0], direction t), ?_, ?_⟩
                · rw [List.zip_map']
                  exact List.mem_map.mpr ⟨t, ht, rfl⟩
                · have : planeNormalOf p = fun i => rotationMatrix r.1 r.2.1 r.2.2 i 2 := by
                    unfold planeNormalOf
                    rw [c5, mul_one]
                    rfl
                  rw [this]
                  exact hpar)
              rw [hn] at e3
              cases e3

/-- A track along z and a DUT turned by 90 degrees around the y axis are parallel. -/
example : dot (fun i => rotationMatrix 0 (Real.pi / 2) 0 i 2) (direction ⟨0, 0, 0, 0⟩) = 0 := by
  simp [dot, direction, rotationMatrix_eq]

/-- The hits of the simple settings. -/
example (u v : Nat → Nat → ℝ) : createHits simple u v [⟨25, 25, 0, 0⟩, ⟨25, 25, 0, 0⟩] = .ok [[![25, 25, 0], ![25, 25, 0]]] := simple_hits u v 2

end BTA.Sim.Props
