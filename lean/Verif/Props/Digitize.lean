import Verif.Lemmas.Clusters
import Verif.Lemmas.Shuffle
/-
C138, C139, C140, C143: digitization in tools/simulate_data.py.
-/
namespace BTA.Sim.Props
open BTA.Sim.Spec

variable {K : Type} [Field K] [LinearOrder K]

/-! ### C138 -/

theorem count_eventsFrom (k : Int) (cs : List Nat) (i : Nat) (c : Nat) (h : cs[i]? = some c) : (eventsFrom k cs).count (k + i) = c := by
  induction cs generalizing k i with
  | nil => simp at h
  | cons a cs ih =>
    rw [eventsFrom, List.count_append]
    cases i with
    | zero =>
      have ha : a = c := by simpa using h
      rw [List.count_eq_zero_of_not_mem (l := eventsFrom (k + 1) cs)]
      · simp [ha]
      · intro hm
        have := (eventsFrom_ge (k + 1) cs _ hm).1
        push_cast at this
        omega
    | succ i =>
      have := ih (k + 1) i (by simpa using h)
      rw [List.count_eq_zero_of_not_mem (l := List.replicate a k), Nat.zero_add]
      · rw [← this]
        congr 1
        push_cast
        ring
      · intro hm
        have := List.eq_of_mem_replicate hm
        push_cast at this
        omega

/-- C138: tracks are created in the order of the events, and each event has the number of tracks drawn for it. -/
theorem C138_tracks (start : Int) (counts : List Nat) :
    (trackEvents start counts).Pairwise (· ≤ ·) ∧ (∀ (i c : Nat), counts[i]? = some c → (trackEvents start counts).count (start + i) = c) ∧
      ∀ e ∈ trackEvents start counts, start ≤ e ∧ e < start + counts.length := by
  rw [eventsFrom_eq]
  exact ⟨eventsFrom_sorted _ _, fun i c h => count_eventsFrom start counts i c h, eventsFrom_ge _ _⟩

/-- C138: shuffling permutes the hits inside of each event and never between events. -/
theorem C138_shuffle {H : Type} (shuffle : Nat → List Nat → List Nat) (hs : ∀ i, Shuffles (shuffle i)) (start : Int) (counts : List Nat)
    (hits : List H) (hl : hits.length = counts.sum) (e : Int) :
    (ofEvent (trackEvents start counts) (shuffleHits shuffle (trackEvents start counts) (trackMultiplicity counts) hits) e).Perm
      (ofEvent (trackEvents start counts) hits e) := by
  have h := shuffleHits_groups hs start counts hits hl
  rw [eventsFrom_eq] at h ⊢
  exact (groupPerm_ofEvent start hl h e).symm

/-- C138: nothing is lost, also over all events. -/
theorem C138_all {H : Type} (shuffle : Nat → List Nat → List Nat) (hs : ∀ i, Shuffles (shuffle i)) (start : Int) (counts : List Nat)
    (hits : List H) (hl : hits.length = counts.sum) :
    (shuffleHits shuffle (trackEvents start counts) (trackMultiplicity counts) hits).Perm hits :=
  (shuffleHits_groups hs start counts hits hl).perm.symm

/-- Events with two, no, one and three tracks; each list is reversed. -/
example : shuffleHits (fun _ l => l.reverse) (trackEvents 7 [2, 0, 1, 3]) (trackMultiplicity [2, 0, 1, 3]) [10, 11, 20, 30, 31, 32] =
    [11, 10, 20, 32, 31, 30] := by decide +kernel

example : ∀ i : Nat, Shuffles ((fun _ l => l.reverse : Nat → List Nat → List Nat) i) := fun _ l => l.reverse_perm

/-! ### C139 -/

theorem digitize_sublist [FloorRing K] {minF : K} {disc sharing : Bool} {frac : K → K → Int → Int → K} {r : Response K} {g : Random K}
    {hits : List (TrackHit K)} {l : List (Digit K)} (h : digitize minF disc sharing frac r g hits = .ok l) (hn : r.noise = 0) :
    ∃ p, positions minF disc sharing frac r g.charge hits = .ok p ∧ List.Sublist l p := by
  unfold digitize at h
  split at h
  · cases h
  · next p e =>
    cases h
    rw [noiseless r g.noise _ hn]
    exact ⟨p, e, (aboveThreshold_sublist _ _).trans (inefficient_sublist _ _ _)⟩

theorem forall2_seeds [FloorRing K] {r : Response K} {charge : Nat → K} {hits : List (TrackHit K)} {gs : List (List (Digit K))}
    (h : List.Forall₂ (fun s g => IsCluster s.event s.hit.charge g) (seeds r charge hits) gs) :
    List.Forall₂ (fun p g => IsCluster p.1.event (charge p.2) g) hits.zipIdx gs := by
  unfold seeds at h
  rw [List.forall₂_map_left_iff] at h
  exact h

/-- C139: with charge sharing and without noise, the hits of a DUT are clusters, one for each track, in the order of the tracks: the pixels of
a cluster are different, each has at least 1% of the charge of the track, and all together have not more than its charge. -/
theorem C139_clusters {erf : ℝ → ℝ} (he : IsErf erf) {sizeX sizeY thickness temperature bias : ℝ} (hx : 0 < sizeX) (hy : 0 < sizeY)
    (hw : 0 < thickness) (ht : 0 < temperature) (hb : 0 < bias) {r : Response ℝ} (hn : r.noise = 0) {g : Random ℝ} (hc : ∀ i, 0 ≤ g.charge i)
    {hits : List (TrackHit ℝ)} {l : List (Digit ℝ)}
    (h : digitize 1e-2 true true (sharingFraction erf sizeX sizeY thickness temperature bias) r g hits = .ok l) :
    ∃ clusters : List (List (Digit ℝ)), l = clusters.flatten ∧
      List.Forall₂ (fun p ds => IsCluster p.1.event (g.charge p.2) ds) hits.zipIdx clusters := by
  obtain ⟨p, hp, hsub⟩ := digitize_sublist h hn
  unfold positions at hp
  rw [if_pos rfl, if_pos rfl] at hp
  split at hp
  · cases hp
  · next q e =>
    cases hp
    have hsig : sigmaDiffusion (thickness / 2) temperature bias * 1 ≠ 0 := by
      unfold sigmaDiffusion
      rw [mul_one]
      exact mul_ne_zero (by positivity) (Real.sqrt_ne_zero'.mpr (by positivity))
    rw [show (1e-2 : ℝ) = 1 / 100 by norm_num] at e
    obtain ⟨gs, h1, h2⟩ := addCs_clusters e (by
      intro s hs
      unfold seeds at hs
      obtain ⟨p, _, rfl⟩ := List.mem_map.mp hs
      exact hc p.2) fun x y => chargeFraction_share he hx hy hsig x y
    rw [h2] at hsub
    obtain ⟨L', h3, h4⟩ := sublist_groups (hsub.trans List.filter_sublist)
    refine ⟨L', h4, ?_⟩
    have h5 := forall2_seeds h1
    refine forall2_sublist ?_ h5 h3
    intro b x y hy' hxy
    exact isCluster_sublist (hc b.2) hy' hxy

theorem cold_createCs (erf : ℝ → ℝ) (sizeX sizeY thickness bias charge x y : ℝ) (room : Nat) (column row maxColumn maxRow : Int) (hroom : 2 ≤ room)
    (h2 : column < maxColumn) (h3 : 2 ≤ row) (h4 : row < maxRow) :
    createCs 1e-2 charge room column row maxColumn maxRow (sharingFraction erf sizeX sizeY thickness 0 bias x y) =
      .ok [⟨column, row, charge⟩, ⟨column, row - 1, charge⟩] := by
  have hf : ∀ i j, sharingFraction erf sizeX sizeY thickness 0 bias x y i j = 1 := by
    intro i j
    unfold sharingFraction chargeFraction
    dsimp only
    rw [if_pos]
    unfold sigmaDiffusion
    norm_num
  have hup : ∀ a b : Int, a < b → ∃ cs, upTo a b = a :: cs := by
    intro a b hab
    unfold upTo
    obtain ⟨n, hn⟩ : ∃ n, (b - a).toNat = n + 1 := ⟨(b - a).toNat - 1, by omega⟩
    rw [hn, List.range_succ_eq_map]
    exact ⟨_, by simp; rfl⟩
  have hdown : ∀ a : Int, 2 ≤ a → ∃ cs, downFrom a = (a - 1) :: cs := by
    intro a ha
    unfold downFrom
    obtain ⟨n, hn⟩ : ∃ n, (a - 1).toNat = n + 1 := ⟨(a - 1).toNat - 1, by omega⟩
    rw [hn, List.range_succ_eq_map]
    exact ⟨_, by simp; rfl⟩
  obtain ⟨cs, hcs⟩ := hup column maxColumn h2
  obtain ⟨rs, hrs⟩ := hup row maxRow h4
  obtain ⟨ds, hds⟩ := hdown row h3
  have rows1 : ∀ (c a : Int) (as : List Int) (s : CsState ℝ), s.hits.length < room → 0 ≤ s.total →
      csRows 1e-2 charge room c (fun w => sharingFraction erf sizeX sizeY thickness 0 bias x y (c - column) (w - row)) (a :: as) s =
        .ok ⟨s.total + 1, s.hits ++ [⟨c, a, charge⟩]⟩ := by
    intro c a as s hs ht
    unfold csRows
    rw [hf, if_neg (by norm_num), if_neg (by omega), if_pos (by
      have : (1 : ℝ) - 1e-2 ≤ 1 := by norm_num
      linarith), one_mul]
  have stop : ∀ (cols : List Int) (s : CsState ℝ), 1 ≤ s.total →
      csColumns 1e-2 charge room column row maxRow (sharingFraction erf sizeX sizeY thickness 0 bias x y) cols s = .ok s := by
    intro cols s hs
    cases cols with
    | nil => rfl
    | cons c cols =>
      unfold csColumns
      rw [if_pos (Or.inl (by
        have : (1 : ℝ) - 1e-2 ≤ 1 := by norm_num
        linarith))]
  have first : csColumns 1e-2 charge room column row maxRow (sharingFraction erf sizeX sizeY thickness 0 bias x y) (column :: cs) ⟨0, []⟩ =
      .ok ⟨0 + 1 + 1, [] ++ [⟨column, row, charge⟩] ++ [⟨column, row - 1, charge⟩]⟩ := by
    unfold csColumns
    rw [if_neg (by rw [hf]; norm_num), hrs, hds, rows1 column row rs ⟨0, []⟩ (by simp; omega) (le_refl _)]
    dsimp only
    rw [rows1 column (row - 1) ds _ (by simp; omega) (by norm_num)]
    dsimp only
    rw [stop _ _ (by norm_num)]
  unfold createCs
  rw [hcs, first]
  dsimp only
  rw [stop _ _ (by norm_num)]
  rfl

/-- C139 is false at temperature 0: a track has two hits with its whole charge each (in pixels that are not at the edge). -/
theorem C139_cold (erf : ℝ → ℝ) (thickness bias : ℝ) (r : Response ℝ) (g : Random ℝ) (t : TrackHit ℝ) (c w : Int) (hx : 0 < r.sizeX)
    (hy : 0 < r.sizeY) (hc : StrictlyInPixel r.sizeX t.x c) (hw : StrictlyInPixel r.sizeY t.y w) (hc1 : 1 ≤ c) (hc2 : c < r.columns)
    (hw1 : 2 ≤ w) (hw2 : w < r.rows) (hn : r.noise = 0) (he : 1 ≤ r.efficiency) (ht : r.threshold = 0) :
    digitize 1e-2 true true (sharingFraction erf r.sizeX r.sizeY thickness 0 bias) r g [t] =
      .ok [⟨t.event, c, w, g.charge 0⟩, ⟨t.event, c, ((w - 1 : Int) : ℝ), g.charge 0⟩] := by
  unfold digitize positions
  rw [if_pos rfl, if_pos rfl]
  have hs : seeds r g.charge [t] = [⟨t.event, ⟨c, w, g.charge 0⟩, t.x - ((c : ℝ) - 1 / 2) * r.sizeX, t.y - ((w : ℝ) - 1 / 2) * r.sizeY⟩] := by
    unfold seeds
    rw [List.zipIdx_cons, List.zipIdx_nil, List.map_cons, List.map_nil]
    dsimp only
    rw [pixelOf_unique hx hc, pixelOf_unique hy hw]
  rw [hs]
  unfold addCs
  dsimp only
  rw [cold_createCs erf r.sizeX r.sizeY thickness bias (g.charge 0) _ _ _ c w r.columns r.rows (by simp) hc2 hw1 hw2]
  unfold addCs
  dsimp only
  have hin : ∀ v : Int, 1 ≤ v → v < r.rows → inside r (toDigit (t.event, ⟨c, v, g.charge 0⟩)) = true := by
    intro v h1 h2
    unfold inside toDigit
    simp only [Bool.and_eq_true, decide_eq_true_eq, Int.cast_pos, Int.cast_le]
    omega
  simp only [List.append_nil, List.map_cons, List.map_nil]
  rw [List.filter_cons_of_pos (hin w (by omega) hw2), List.filter_cons_of_pos (hin (w - 1) (by omega) (by omega)), List.filter_nil]
  unfold aboveThreshold inefficient
  rw [if_neg (not_not.mpr ht), if_neg (not_lt.mpr he), noiseless _ _ _ hn]
  rfl

/-- At least one function is like the error function. -/
theorem isErf_example : IsErf fun x : ℝ => max (-1) (min 1 x) :=
  ⟨fun a b h => max_le_max (le_refl _) (min_le_min (le_refl _) h), fun _ => le_max_left _ _, fun _ => max_le (by norm_num) (min_le_left _ _)⟩

/-- With this function, a track in the middle of a pixel has all its charge in this pixel. -/
theorem clamp_fraction (i j : Int) : sharingFraction (fun x : ℝ => max (-1) (min 1 x)) 50 50 100 300 50 0 0 i j = if i = 0 ∧ j = 0 then 1 else 0 := by
  unfold sharingFraction chargeFraction
  dsimp only
  have hs0 : 0 < Real.sqrt (2 * 300 / 50 * 8.6173324e-5) := Real.sqrt_pos.mpr (by norm_num)
  have hs1 : Real.sqrt (2 * 300 / 50 * 8.6173324e-5) ≤ 1 / 10 := Real.sqrt_le_iff.mpr ⟨by norm_num, by norm_num⟩
  set σ := sigmaDiffusion (100 / 2) 300 50 * 1 with hσ
  have e : σ = 50 * Real.sqrt (2 * 300 / 50 * 8.6173324e-5) := by
    rw [hσ]
    unfold sigmaDiffusion
    norm_num
  have h0 : 0 < σ := by rw [e]; positivity
  have h1 : σ ≤ 5 := by rw [e]; linarith
  rw [if_neg h0.ne']
  unfold bivariateCdf
  set w := Real.sqrt (2 * σ ^ 2) with hw
  have hw0 : 0 < w := Real.sqrt_pos.mpr (by positivity)
  have hw1 : w ≤ 25 := Real.sqrt_le_iff.mpr ⟨by norm_num, by nlinarith⟩
  have up : ∀ k : Int, 0 ≤ k → max (-1) (min 1 ((50 * ((k : ℝ) + 1 / 2) - 0) / w)) = 1 := by
    intro k hk
    have : (0 : ℝ) ≤ k := by exact_mod_cast hk
    rw [min_eq_left, max_eq_right (by norm_num)]
    rw [le_div_iff₀ hw0]
    linarith
  have down : ∀ k : Int, k ≤ 0 → max (-1) (min 1 ((50 * ((k : ℝ) - 1 / 2) - 0) / w)) = -1 := by
    intro k hk
    have hk' : (k : ℝ) ≤ 0 := by exact_mod_cast hk
    have : (50 * ((k : ℝ) - 1 / 2) - 0) / w ≤ -1 := by
      rw [div_le_iff₀ hw0]
      linarith
    rw [min_eq_right (by linarith), max_eq_left this]
  have up' : ∀ k : Int, 1 ≤ k → max (-1) (min 1 ((50 * ((k : ℝ) - 1 / 2) - 0) / w)) = 1 := by
    intro k hk
    have := up (k - 1) (by omega)
    push_cast at this
    have e2 : ((k : ℝ) - 1 + 1 / 2) = (k : ℝ) - 1 / 2 := by ring
    rw [e2] at this
    exact this
  have down' : ∀ k : Int, k ≤ -1 → max (-1) (min 1 ((50 * ((k : ℝ) + 1 / 2) - 0) / w)) = -1 := by
    intro k hk
    have := down (k + 1) (by omega)
    push_cast at this
    have e2 : ((k : ℝ) + 1 - 1 / 2) = (k : ℝ) + 1 / 2 := by ring
    rw [e2] at this
    exact this
  have step : ∀ k : Int, (max (-1) (min 1 ((50 * ((k : ℝ) + 1 / 2) - 0) / w)) - max (-1) (min 1 ((50 * ((k : ℝ) - 1 / 2) - 0) / w))) =
      if k = 0 then 2 else 0 := by
    intro k
    split_ifs with hk
    · rw [up k (by omega), down k (by omega)]
      norm_num
    · rcases lt_or_gt_of_ne hk with hk | hk
      · rw [down' k (by omega), down k (by omega), sub_self]
      · rw [up k (by omega), up' k (by omega), sub_self]
  rw [step, step]
  by_cases hi : i = 0
  · by_cases hj : j = 0
    · rw [if_pos hi, if_pos hj, if_pos ⟨hi, hj⟩]
      norm_num
    · rw [if_neg hj, if_neg (show ¬ (i = 0 ∧ j = 0) from fun h => hj h.2)]
      norm_num
  · rw [if_neg hi, if_neg (show ¬ (i = 0 ∧ j = 0) from fun h => hi h.1)]
    norm_num

/-- The hypotheses of C139_clusters can be met: a track in the middle of the pixel in column 2 and row 3. -/
example : digitize 1e-2 true true (sharingFraction (fun x : ℝ => max (-1) (min 1 x)) 50 50 100 300 50) ⟨0, 0, 50, 50, 10, 10, 1⟩
    ⟨fun _ => 1000, fun _ => 0, id⟩ [⟨4, 75, 125⟩] = .ok [⟨4, 2, 3, 1000⟩] := by
  unfold digitize positions
  rw [if_pos rfl, if_pos rfl]
  have hs : seeds (⟨0, 0, 50, 50, 10, 10, 1⟩ : Response ℝ) (fun _ => 1000) [⟨4, 75, 125⟩] = [⟨4, ⟨2, 3, 1000⟩, 0, 0⟩] := by
    unfold seeds
    rw [List.zipIdx_cons, List.zipIdx_nil, List.map_cons, List.map_nil]
    dsimp only
    rw [pixelOf_unique (c := 2) (by norm_num) (by unfold StrictlyInPixel; norm_num),
      pixelOf_unique (c := 3) (by norm_num) (by unfold StrictlyInPixel; norm_num)]
    norm_num
  have hc : createCs (1e-2 : ℝ) 1000 5 2 3 10 10 (sharingFraction (fun x : ℝ => max (-1) (min 1 x)) 50 50 100 300 50 0 0) = .ok [⟨2, 3, 1000⟩] := by
    have hfun : sharingFraction (fun x : ℝ => max (-1) (min 1 x)) 50 50 100 300 50 0 0 = fun i j => if i = 0 ∧ j = 0 then 1 else 0 := by
      funext i j
      exact clamp_fraction i j
    rw [hfun]
    have u1 : upTo 2 10 = [2, 3, 4, 5, 6, 7, 8, 9] := by decide
    have u2 : upTo 3 10 = [3, 4, 5, 6, 7, 8, 9] := by decide
    have d1 : downFrom 2 = [1] := by decide
    have d2 : downFrom 3 = [2, 1] := by decide
    unfold createCs
    rw [u1, d1]
    norm_num [csColumns, csRows, u2, d2]
  rw [hs]
  unfold addCs
  dsimp only
  rw [show (5 * [(⟨4, 75, 125⟩ : TrackHit ℝ)].length - 0) = 5 from rfl, hc]
  unfold addCs
  dsimp only
  have hin : inside (⟨0, 0, 50, 50, 10, 10, 1⟩ : Response ℝ) (toDigit (4, ⟨2, 3, 1000⟩)) = true := by
    unfold inside toDigit
    simp only [Bool.and_eq_true, decide_eq_true_eq, Int.cast_pos, Int.cast_le]
    omega
  simp only [List.append_nil, List.map_cons, List.map_nil]
  rw [List.filter_cons_of_pos hin, List.filter_nil]
  unfold aboveThreshold inefficient
  rw [if_neg (by norm_num), if_neg (by norm_num), noiseless _ _ _ rfl]
  unfold toDigit
  norm_num

/-- Example of fractions: the charge is shared between two pixels. The clusters have both. -/
example : createCs (1 / 100 : ℚ) 1000 5 3 4 10 10 (fun i j => if (i, j) = (0, 0) then 7 / 10 else if (i, j) = (0, -1) then 3 / 10 else 0) =
    .ok [⟨3, 4, 700⟩, ⟨3, 3, 300⟩] := by decide +kernel

/-! ### C140 -/

/-- C140: without charge sharing, each track in the sensor makes a hit in a pixel that contains its position; there are no other hits. -/
theorem C140_pixels [IsStrictOrderedRing K] [FloorRing K] (minF : K) (frac : K → K → Int → Int → K) (r : Response K) (g : Random K)
    (hits : List (TrackHit K)) (hx : 0 < r.sizeX) (hy : 0 < r.sizeY) (he : 1 ≤ r.efficiency) (ht : r.threshold = 0) :
    ∃ (pixels : List (Int × Int)) (l : List (Digit K)), digitize minF true false frac r g hits = .ok l ∧
      List.Forall₂ (fun t p => InPixel r.sizeX t.x p.1 ∧ InPixel r.sizeY t.y p.2) hits pixels ∧
      l.map (fun d => (d.event, d.column, d.row)) =
        ((hits.zip pixels).filter fun q => decide ((1 ≤ q.2.1 ∧ q.2.1 ≤ r.columns) ∧ 1 ≤ q.2.2 ∧ q.2.2 ≤ r.rows)).map
          fun q => (q.1.event, (q.2.1 : K), (q.2.2 : K)) := by
  refine ⟨hits.map fun t => (pixelOf t.x r.sizeX, pixelOf t.y r.sizeY), _, rfl, ?_, ?_⟩
  · rw [List.forall₂_map_right_iff]
    exact List.forall₂_same.mpr fun t _ => ⟨pixelOf_in hx _, pixelOf_in hy _⟩
  · unfold aboveThreshold
    rw [if_neg (not_not.mpr ht), addNoise_same r g.noise _ _ (fun _ _ => rfl)]
    unfold inefficient
    rw [if_neg (not_lt.mpr he), List.zip_map_right, List.filter_map, List.map_map]
    have hin : ∀ (s : Seed K), inside r (toDigit (s.event, s.hit)) =
        decide ((1 ≤ s.hit.column ∧ s.hit.column ≤ r.columns) ∧ 1 ≤ s.hit.row ∧ s.hit.row ≤ r.rows) := by
      intro s
      unfold inside toDigit
      dsimp only
      rw [← Bool.decide_and, ← Bool.decide_and, ← Bool.decide_and, decide_eq_decide, Int.cast_le, Int.cast_le, Int.cast_pos, Int.cast_pos]
      constructor
      · rintro ⟨⟨a, b⟩, c, d⟩; exact ⟨⟨by omega, b⟩, by omega, d⟩
      · rintro ⟨⟨a, b⟩, c, d⟩; exact ⟨⟨by omega, b⟩, by omega, d⟩
    rw [List.filter_map, List.map_map]
    have hz : hits.zip hits = hits.map fun t => (t, t) := by
      clear ht he
      induction hits with
      | nil => rfl
      | cons t ts ih => rw [List.zip_cons_cons, ih]; rfl
    rw [hz, List.filter_map, List.map_map]
    unfold seeds
    rw [List.filter_map, List.map_map]
    have h2 : ∀ (P : TrackHit K → Bool) (V : Type) (f : TrackHit K → V),
        (hits.zipIdx.filter fun p => P p.1).map (fun p => f p.1) = (hits.filter P).map f := by
      intro P V f
      conv_rhs => rw [← List.zipIdx_map_fst 0 hits]
      rw [List.filter_map, List.map_map]
      rfl
    rw [← h2]
    congr 1
    refine List.filter_congr fun p _ => ?_
    exact hin _

/-- C140: the pixel is unique, if the position is not on a border between pixels. -/
theorem C140_unique [IsStrictOrderedRing K] {size x : K} (hs : 0 < size) {c c' : Int} (h : StrictlyInPixel size x c) (h' : InPixel size x c') : c' = c := by
  obtain ⟨h1, h2⟩ := h'
  obtain ⟨h3, h4⟩ := h
  have a : ((c' : K) - 1) < c := lt_of_mul_lt_mul_right (lt_of_le_of_lt h1 h4) hs.le
  have b : ((c : K) - 1) < c' := lt_of_mul_lt_mul_right (lt_of_lt_of_le h3 h2) hs.le
  have a' : c' - 1 < c := by exact_mod_cast a
  have b' : c - 1 < c' := by exact_mod_cast b
  omega

theorem forall2_get {α β : Type} {R : α → β → Prop} {a : List α} {b : List β} (h : List.Forall₂ R a b) {x : α} (hx : x ∈ a) :
    ∃ y ∈ b, R x y ∧ (x, y) ∈ a.zip b := by
  induction h with
  | nil => cases hx
  | cons hr _ ih =>
    rcases List.mem_cons.mp hx with rfl | hx
    · exact ⟨_, List.mem_cons_self .., hr, by simp⟩
    · obtain ⟨y, h1, h2, h3⟩ := ih hx
      exact ⟨y, List.mem_cons_of_mem _ h1, h2, by rw [List.zip_cons_cons]; exact List.mem_cons_of_mem _ h3⟩

/-- C140 with charge sharing: a track inside of a pixel makes a hit in this pixel, if the pixel is not in the last column or row and gets at
least 1% of the charge. -/
theorem C140_seed_partial [IsStrictOrderedRing K] [FloorRing K] (minF : K) (hm : minF < 1) (frac : K → K → Int → Int → K) (r : Response K) (g : Random K)
    (hits : List (TrackHit K)) (hx : 0 < r.sizeX) (hy : 0 < r.sizeY) (he : 1 ≤ r.efficiency) (ht : r.threshold = 0) (l : List (Digit K))
    (h : digitize minF true true frac r g hits = .ok l) (t : TrackHit K) (hmem : t ∈ hits) (c w : Int) (hc : StrictlyInPixel r.sizeX t.x c)
    (hw : StrictlyInPixel r.sizeY t.y w) (hc1 : 1 ≤ c) (hc2 : c < r.columns) (hw1 : 1 ≤ w) (hw2 : w < r.rows)
    (hf : minF ≤ frac (t.x - ((c : K) - 1 / 2) * r.sizeX) (t.y - ((w : K) - 1 / 2) * r.sizeY) 0 0) :
    ∃ d ∈ l, d.event = t.event ∧ d.column = c ∧ d.row = w := by
  unfold digitize positions at h
  rw [if_pos rfl, if_pos rfl] at h
  split at h
  · cases h
  · next p e =>
    split at e
    · cases e
    · next q eq =>
      cases e
      cases h
      obtain ⟨gs, h1, h2⟩ := addCs_groups eq
      obtain ⟨i, hi⟩ := List.mem_iff_getElem?.mp hmem
      have hz : (t, i) ∈ hits.zipIdx := by
        rw [List.mem_zipIdx_iff_getElem?]
        exact hi
      have hs : (⟨t.event, ⟨c, w, g.charge i⟩, t.x - ((c : K) - 1 / 2) * r.sizeX, t.y - ((w : K) - 1 / 2) * r.sizeY⟩ : Seed K) ∈
          seeds r g.charge hits := by
        unfold seeds
        refine List.mem_map.mpr ⟨(t, i), hz, ?_⟩
        dsimp only
        rw [pixelOf_unique hx hc, pixelOf_unique hy hw]
      obtain ⟨gr, _, ⟨room, hcs⟩, hzip⟩ := forall2_get h1 hs
      have hseed := createCs_seed hcs hc2 hw2 hf (by linarith)
      have hq : (t.event, (⟨c, w, frac (t.x - ((c : K) - 1 / 2) * r.sizeX) (t.y - ((w : K) - 1 / 2) * r.sizeY) 0 0 * g.charge i⟩ : PixelHit K)) ∈ q := by
        rw [h2, List.mem_flatten]
        refine ⟨_, List.mem_map.mpr ⟨_, hzip, rfl⟩, ?_⟩
        exact List.mem_map.mpr ⟨_, hseed, rfl⟩
      have hd : toDigit (t.event, (⟨c, w, frac (t.x - ((c : K) - 1 / 2) * r.sizeX) (t.y - ((w : K) - 1 / 2) * r.sizeY) 0 0 * g.charge i⟩ : PixelHit K)) ∈
          (q.map toDigit).filter (inside r) := by
        refine List.mem_filter.mpr ⟨List.mem_map.mpr ⟨_, hq, rfl⟩, ?_⟩
        unfold inside toDigit
        simp only [Bool.and_eq_true, decide_eq_true_eq, Int.cast_pos, Int.cast_le]
        omega
      unfold aboveThreshold inefficient
      rw [if_neg (not_not.mpr ht), if_neg (not_lt.mpr he)]
      have h3 := List.mem_map_of_mem (f := fun d : Digit K => (d.event, d.column, d.row)) hd
      rw [← addNoise_same r g.noise _ (fun d : Digit K => (d.event, d.column, d.row)) (fun _ _ => rfl)] at h3
      obtain ⟨d, hd1, hd2⟩ := List.mem_map.mp h3
      obtain ⟨a1, a2⟩ := Prod.mk.inj hd2
      obtain ⟨a3, a4⟩ := Prod.mk.inj a2
      exact ⟨d, hd1, a1, a3, a4⟩

/-- C140 is false for the last column: with charge sharing there is never a hit in the last column, if no track is beyond it. -/
theorem C140_last_column [IsStrictOrderedRing K] [FloorRing K] (minF : K) (frac : K → K → Int → Int → K) (r : Response K) (g : Random K)
    (hits : List (TrackHit K)) (hx : 0 < r.sizeX) (hin : ∀ t ∈ hits, t.x < r.columns * r.sizeX) (l : List (Digit K))
    (h : digitize minF true true frac r g hits = .ok l) : ∀ d ∈ l, d.column ≠ r.columns := by
  unfold digitize positions at h
  rw [if_pos rfl, if_pos rfl] at h
  split at h
  · cases h
  · next p e =>
    split at e
    · cases e
    · next q eq =>
      cases e
      cases h
      intro d hd
      have h1 := List.mem_map_of_mem (f := Digit.column) ((aboveThreshold_sublist _ _).subset hd)
      rw [addNoise_same r g.noise _ Digit.column (fun _ _ => rfl)] at h1
      obtain ⟨d', h2, h3⟩ := List.mem_map.mp h1
      obtain ⟨h4, _⟩ := List.mem_filter.mp ((inefficient_sublist _ _ _).subset h2)
      obtain ⟨⟨ev, ph⟩, h5, rfl⟩ := List.mem_map.mp h4
      obtain ⟨gs, g1, g2⟩ := addCs_groups eq
      rw [g2, List.mem_flatten] at h5
      obtain ⟨m, hm, h6⟩ := h5
      obtain ⟨⟨s, gr⟩, hz, rfl⟩ := List.mem_map.mp hm
      obtain ⟨ph', h7, h8⟩ := List.mem_map.mp h6
      obtain ⟨_, rfl⟩ := Prod.mk.inj h8
      have hrel : ∃ room, createCs minF s.hit.charge room s.hit.column s.hit.row r.columns r.rows (frac s.relX s.relY) = .ok gr := by
        have := List.forall₂_zip g1 hz
        exact this
      obtain ⟨room, hcs⟩ := hrel
      obtain ⟨ps, b1, _, b3⟩ := createCs_ok hcs
      rw [b3] at h7
      obtain ⟨pp, hpp, rfl⟩ := List.mem_map.mp h7
      obtain ⟨c1, _⟩ := mem_grid.mp (b1.subset hpp)
      have hs := (List.of_mem_zip hz).1
      unfold seeds at hs
      obtain ⟨tz, htz, rfl⟩ := List.mem_map.mp hs
      have htm : tz.1 ∈ hits := by
        have := List.mem_map_of_mem (f := Prod.fst) htz
        rwa [List.zipIdx_map_fst] at this
      have hlt : pixelOf tz.1.x r.sizeX ≤ r.columns := by
        have a1 := (pixelOf_in hx tz.1.x).1
        have a2 := lt_of_mul_lt_mul_right (lt_of_le_of_lt a1 (hin _ htm)) hx.le
        have a3 : pixelOf tz.1.x r.sizeX - 1 < r.columns := by exact_mod_cast a2
        omega
      rw [← h3]
      show ((pp.1 : Int) : K) ≠ (r.columns : K)
      intro hcon
      have hcon' : pp.1 = r.columns := by exact_mod_cast hcon
      rcases List.mem_append.mp c1 with c1 | c1
      · have := (mem_upTo.mp c1).2
        omega
      · have := (mem_downFrom.mp c1).2
        dsimp only at this
        omega

/-- C140 is false for the last row. -/
theorem C140_last_row [IsStrictOrderedRing K] [FloorRing K] (minF : K) (frac : K → K → Int → Int → K) (r : Response K) (g : Random K)
    (hits : List (TrackHit K)) (hy : 0 < r.sizeY) (hin : ∀ t ∈ hits, t.y < r.rows * r.sizeY) (l : List (Digit K))
    (h : digitize minF true true frac r g hits = .ok l) : ∀ d ∈ l, d.row ≠ r.rows := by
  unfold digitize positions at h
  rw [if_pos rfl, if_pos rfl] at h
  split at h
  · cases h
  · next p e =>
    split at e
    · cases e
    · next q eq =>
      cases e
      cases h
      intro d hd
      have h1 := List.mem_map_of_mem (f := Digit.row) ((aboveThreshold_sublist _ _).subset hd)
      rw [addNoise_same r g.noise _ Digit.row (fun _ _ => rfl)] at h1
      obtain ⟨d', h2, h3⟩ := List.mem_map.mp h1
      obtain ⟨h4, _⟩ := List.mem_filter.mp ((inefficient_sublist _ _ _).subset h2)
      obtain ⟨⟨ev, ph⟩, h5, rfl⟩ := List.mem_map.mp h4
      obtain ⟨gs, g1, g2⟩ := addCs_groups eq
      rw [g2, List.mem_flatten] at h5
      obtain ⟨m, hm, h6⟩ := h5
      obtain ⟨⟨s, gr⟩, hz, rfl⟩ := List.mem_map.mp hm
      obtain ⟨ph', h7, h8⟩ := List.mem_map.mp h6
      obtain ⟨_, rfl⟩ := Prod.mk.inj h8
      have hrel : ∃ room, createCs minF s.hit.charge room s.hit.column s.hit.row r.columns r.rows (frac s.relX s.relY) = .ok gr := by
        have := List.forall₂_zip g1 hz
        exact this
      obtain ⟨room, hcs⟩ := hrel
      obtain ⟨ps, b1, _, b3⟩ := createCs_ok hcs
      rw [b3] at h7
      obtain ⟨pp, hpp, rfl⟩ := List.mem_map.mp h7
      obtain ⟨_, c1⟩ := mem_grid.mp (b1.subset hpp)
      have hs := (List.of_mem_zip hz).1
      unfold seeds at hs
      obtain ⟨tz, htz, rfl⟩ := List.mem_map.mp hs
      have htm : tz.1 ∈ hits := by
        have := List.mem_map_of_mem (f := Prod.fst) htz
        rwa [List.zipIdx_map_fst] at this
      have hlt : pixelOf tz.1.y r.sizeY ≤ r.rows := by
        have a1 := (pixelOf_in hy tz.1.y).1
        have a2 := lt_of_mul_lt_mul_right (lt_of_le_of_lt a1 (hin _ htm)) hy.le
        have a3 : pixelOf tz.1.y r.sizeY - 1 < r.rows := by exact_mod_cast a2
        omega
      rw [← h3]
      show ((pp.2 : Int) : K) ≠ (r.rows : K)
      intro hcon
      have hcon' : pp.2 = r.rows := by exact_mod_cast hcon
      rcases List.mem_append.mp c1 with c1 | c1
      · have := (mem_upTo.mp c1).2
        omega
      · have := (mem_downFrom.mp c1).2
        dsimp only at this
        omega

/-- A sensor with 3 columns and 2 rows for the examples. -/
def sensor : Response ℚ := ⟨0, 0, 50, 100, 3, 2, 1⟩

def noRandom : Random ℚ := ⟨fun _ => 1000, fun _ => 0, id⟩

/-- Without sharing: the second track is outside, the third one in the last column. -/
example : digitize (1 / 100) true false (fun _ _ _ _ => 0) sensor noRandom [⟨4, 60, 30⟩, ⟨4, -10, 30⟩, ⟨5, 140, 170⟩] =
    .ok [⟨4, 2, 1, 1000⟩, ⟨5, 3, 2, 1000⟩] := by decide +kernel

/-- With sharing the third track is lost. -/
example : digitize (1 / 100) true true (fun _ _ i j => if (i, j) = (0, 0) then 1 else 0) sensor noRandom [⟨4, 60, 30⟩, ⟨4, -10, 30⟩, ⟨5, 140, 170⟩] =
    .ok [⟨4, 2, 1, 1000⟩] := by decide +kernel

/-! ### C143 -/

/-- C143: from `n` hits, exactly `⌊n (1 - efficiency)⌋` hits are removed, and the others are not changed. -/
theorem C143_efficiency [IsStrictOrderedRing K] [FloorRing K] (minF : K) (disc sharing : Bool) (frac : K → K → Int → Int → K) (r : Response K)
    (g : Random K) (hits : List (TrackHit K)) (full l : List (Digit K)) (hg : Shuffles g.shuffle) (h0 : 0 ≤ r.efficiency) (h1 : r.efficiency ≤ 1)
    (ht : r.threshold = 0) (hfull : digitize minF disc sharing frac { r with efficiency := 1 } g hits = .ok full)
    (hl : digitize minF disc sharing frac r g hits = .ok l) :
    l.length = full.length - ⌊(full.length : K) * (1 - r.efficiency)⌋.toNat ∧
      List.Sublist (l.map fun d => (d.event, d.column, d.row)) (full.map fun d => (d.event, d.column, d.row)) ∧
      (r.noise = 0 → List.Sublist l full) := by
  have hpos : ∀ eff, positions minF disc sharing frac { r with efficiency := eff } g.charge hits = positions minF disc sharing frac r g.charge hits :=
    fun _ => rfl
  unfold digitize at hfull hl
  rw [hpos] at hfull
  split at hfull
  · cases hfull
  · next p e =>
    rw [e] at hl
    cases hfull
    cases hl
    unfold aboveThreshold
    rw [if_neg (not_not.mpr ht), if_neg (not_not.mpr ht)]
    have hone : inefficient { r with efficiency := 1 } g.shuffle p = p := by
      unfold inefficient
      rw [if_neg (lt_irrefl _)]
    rw [hone]
    have hlen : ∀ (r' : Response K) (q : List (Digit K)), (addNoise r' g.noise q).length = q.length := by
      intro r' q
      have := congrArg List.length (addNoise_same r' g.noise q (fun _ => ()) (fun _ _ => rfl))
      rwa [List.length_map, List.length_map] at this
    refine ⟨?_, ?_, ?_⟩
    · rw [hlen, hlen]
      rcases lt_or_eq_of_le h1 with h2 | h2
      · exact inefficient_length r g.shuffle hg p h0 h2
      · unfold inefficient
        rw [h2, if_neg (lt_irrefl _)]
        simp
    · rw [addNoise_same r g.noise _ _ (fun _ _ => rfl), addNoise_same { r with efficiency := 1 } g.noise _ _ (fun _ _ => rfl)]
      exact (inefficient_sublist r g.shuffle p).map _
    · intro hn
      rw [noiseless r _ _ hn, noiseless { r with efficiency := 1 } _ _ hn]
      exact inefficient_sublist r g.shuffle p

/-- Half of three hits: one is removed. -/
example : digitize (1 / 100) false false (fun _ _ _ _ => 0) { sensor with efficiency := 1 / 2 } { noRandom with shuffle := List.reverse }
    [⟨4, 60, 30⟩, ⟨4, 10, 30⟩, ⟨5, 140, 170⟩] = .ok [⟨4, 60, 30, 1000⟩, ⟨4, 10, 30, 1000⟩] := by decide +kernel

end BTA.Sim.Props
