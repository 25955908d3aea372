import Verif.Lemmas.RegionHist
import Verif.Props.AngleHist
import Mathlib.Data.Rat.Floor
/- Theorems C169 – C171: hits of the pixels around a track, histograms of charge, frame, cluster size and angles of `calculate_efficiency`. -/
namespace BTA.RegionHist.Props
open BTA.RegionHist BTA.HistStat

/-! ### C169 -/

/-- C169, the true part. If every cluster of the tracks has one hit, no cluster belongs to two tracks, and at least one hit belongs to a track, each
hit of such a cluster is counted once: in the bin of its track and at its distance in columns and rows from the pixel of the bin. -/
theorem C169_single_partial (pixelOf : Nat → Int × Int) (sx sy : Nat) (sorter : List Nat) (hits : List CHit) (tracks : List VTrack)
    (hs : BTA.Props.IsArgsort (tracks.map VTrack.key) sorter) (h1 : ∀ t ∈ tracks, t.nHits = 1)
    (hu : ∀ t ∈ tracks, ∀ t' ∈ tracks, t.event = t'.event → t.cluster = t'.cluster → t = t')
    (hsome : ∃ h ∈ hits, ∃ t ∈ tracks, t.event = h.event ∧ t.cluster = h.cluster) :
    ∃ entries, pixelHits pixelOf sx sy sorter hits tracks = .ok entries ∧
      ∀ b i j : Nat, entries.count (b, i, j) = hits.countP fun h => decide (i < sx ∧ j < sy ∧ ∃ t ∈ tracks, t.event = h.event ∧ t.cluster = h.cluster ∧
        t.bin = b ∧ (i : Int) - (sx / 2 : Nat) = h.column - 1 - (pixelOf b).1 ∧ (j : Int) - (sy / 2 : Nat) = h.row - 1 - (pixelOf b).2) := by
  have hkey : ∀ (t : VTrack) (h : CHit), t.key = h.key ↔ t.event = h.event ∧ t.cluster = h.cluster := by
    intro t h
    unfold VTrack.key CHit.key
    rw [toLex_inj, Prod.mk.injEq]
  obtain ⟨h0, hh0, t0, ht0, hk0⟩ := hsome
  have hne : tracks ≠ [] := by rintro rfl; exact absurd ht0 (by simp)
  obtain ⟨hp, hfst⟩ := sel_spec (hits := hits) hne hs
  have hlen := sel_length (hits := hits) hne hs
  unfold pixelHits
  rw [if_neg hne]
  dsimp only
  generalize in1dIndex (hits.map CHit.key) (tracks.map VTrack.key) (some sorter) = sel at *
  obtain ⟨z1, z2⟩ := zip_one (hits := hits) (tracks := tracks) sel (by
    intro p hps
    obtain ⟨x, t, hx, ht, -⟩ := hp p hps
    exact ⟨x, t, hx, ht, h1 t (List.mem_of_getElem? ht)⟩)
  unfold together
  rw [if_pos z1]
  dsimp only
  have hnl : (sel.filterMap fun p => hits[p.1]?).zip (repeatedBins tracks sel) ≠ [] := by
    intro h
    have hl : ((sel.filterMap fun p => hits[p.1]?).zip (repeatedBins tracks sel)).length = 0 := by rw [h]; rfl
    rw [List.length_zip, ← z1, Nat.min_self, filterMap_length_of_some _ _ (by
      intro p hps
      obtain ⟨x, t, hx, -, -⟩ := hp p hps
      rw [hx]; rfl), hlen, List.countP_eq_zero] at hl
    exact hl h0 hh0 (by rw [decide_eq_true_eq]; exact ⟨t0, ht0, (hkey _ _).mpr hk0⟩)
  rw [if_neg hnl]
  refine ⟨_, rfl, ?_⟩
  intro b i j
  rw [z2, List.filterMap_filterMap, List.count_filterMap]
  have hq : ∀ p ∈ sel, ((pairOf hits tracks p).bind (cell pixelOf sx sy) == some (b, i, j)) = hits[p.1]?.any fun h => decide (i < sx ∧ j < sy ∧ ∃ t ∈ tracks, t.event = h.event ∧ t.cluster = h.cluster ∧
        t.bin = b ∧ (i : Int) - (sx / 2 : Nat) = h.column - 1 - (pixelOf b).1 ∧ (j : Int) - (sy / 2 : Nat) = h.row - 1 - (pixelOf b).2) := by
    intro p hps
    obtain ⟨x, t, hx, ht, hk⟩ := hp p hps
    have htm := List.mem_of_getElem? ht
    have hpo : pairOf hits tracks p = some (x, t.bin) := by unfold pairOf; rw [hx, ht]
    rw [hpo, hx]
    rw [Bool.eq_iff_iff, beq_iff_eq]
    simp only [Option.bind_some, Option.any_some, decide_eq_true_eq]
    unfold cell
    dsimp only
    obtain ⟨k1, k2⟩ := (hkey _ _).mp hk
    constructor
    · intro h
      split at h
      · rename_i hc
        have he := Option.some.inj h
        rw [Prod.mk.injEq, Prod.mk.injEq] at he
        obtain ⟨e1, e2, e3⟩ := he
        subst e1
        exact ⟨by omega, by omega, t, htm, k1, k2, rfl, by omega, by omega⟩
      · exact absurd h (by simp)
    · rintro ⟨hi, hj, t', ht', k1', k2', rfl, e1, e2⟩
      have : t = t' := hu t htm t' ht' (by rw [k1, k1']) (by rw [k2, k2'])
      subst this
      rw [if_pos (by omega)]
      congr 1
      rw [Prod.mk.injEq, Prod.mk.injEq]
      exact ⟨rfl, by omega, by omega⟩
  rw [List.countP_congr (q := fun p => hits[p.1]?.any fun h => decide (i < sx ∧ j < sy ∧ ∃ t ∈ tracks, t.event = h.event ∧ t.cluster = h.cluster ∧
        t.bin = b ∧ (i : Int) - (sx / 2 : Nat) = h.column - 1 - (pixelOf b).1 ∧ (j : Int) - (sy / 2 : Nat) = h.row - 1 - (pixelOf b).2))
    (by intro p hps; rw [hq p hps])]
  have hc : ∀ (q : Nat → Bool), sel.countP (fun p => q p.1) = (sel.map Prod.fst).countP q := by
    intro q; rw [List.countP_map]; rfl
  rw [hc (fun k => hits[k]?.any _), hfst, List.countP_filter]
  apply countP_range
  intro k h hk
  rw [hk, Option.any_some, Option.any_some, Bool.eq_iff_iff, Bool.and_eq_true, decide_eq_true_eq, decide_eq_true_eq]
  constructor
  · exact fun h => h.1
  · intro h'
    refine ⟨h', ?_⟩
    obtain ⟨-, -, t, ht, k1, k2, -⟩ := h'
    exact ⟨t, ht, (hkey _ _).mpr ⟨k1, k2⟩⟩

/-- C169, false in general: as soon as the cluster of one track has more than one hit, the call raises an exception (the bins are repeated for the
hits of the cluster twice), for all tables in which the clusters are complete. -/
theorem C169_larger_cluster (pixelOf : Nat → Int × Int) (sx sy : Nat) (sorter : List Nat) (hits : List CHit) (tracks : List VTrack)
    (hs : BTA.Props.IsArgsort (tracks.map VTrack.key) sorter)
    (hc : ∀ t ∈ tracks, t.nHits = hits.countP fun h => decide (t.event = h.event ∧ t.cluster = h.cluster))
    (h2 : ∃ t ∈ tracks, 2 ≤ t.nHits) : pixelHits pixelOf sx sy sorter hits tracks = .error .shape := by
  have hkey : ∀ (t : VTrack) (h : CHit), t.key = h.key ↔ t.event = h.event ∧ t.cluster = h.cluster := by
    intro t h
    unfold VTrack.key CHit.key
    rw [toLex_inj, Prod.mk.injEq]
  obtain ⟨t0, ht0, h20⟩ := h2
  have hne : tracks ≠ [] := by rintro rfl; exact absurd ht0 (by simp)
  obtain ⟨hp, hfst⟩ := sel_spec (hits := hits) hne hs
  have hlen := sel_length (hits := hits) hne hs
  have hhl := hits_length (hits := hits) hne hs
  unfold pixelHits
  rw [if_neg hne]
  dsimp only
  generalize in1dIndex (hits.map CHit.key) (tracks.map VTrack.key) (some sorter) = sel at *
  have hone : ∀ p ∈ sel, ∃ t, tracks[p.2]? = some t ∧ 1 ≤ t.nHits := by
    intro p hps
    obtain ⟨x, t, hx, ht, hk⟩ := hp p hps
    refine ⟨t, ht, ?_⟩
    rw [hc t (List.mem_of_getElem? ht)]
    exact List.countP_pos_iff.mpr ⟨x, List.mem_of_getElem? hx, by rw [decide_eq_true_eq]; exact (hkey _ _).mp hk⟩
  have htwo : ∃ p ∈ sel, ∃ t, tracks[p.2]? = some t ∧ 2 ≤ t.nHits := by
    have : 0 < hits.countP fun h => decide (t0.event = h.event ∧ t0.cluster = h.cluster) := by rw [← hc t0 ht0]; omega
    obtain ⟨x, hx, hxt⟩ := List.countP_pos_iff.mp this
    rw [decide_eq_true_eq] at hxt
    obtain ⟨k, hk⟩ := List.mem_iff_getElem?.mp hx
    have hkm : k ∈ sel.map Prod.fst := by
      rw [hfst, List.mem_filter, List.mem_range]
      refine ⟨(List.getElem?_eq_some_iff.mp hk).1, ?_⟩
      rw [hk, Option.any_some, decide_eq_true_eq]
      exact ⟨t0, ht0, (hkey _ _).mpr hxt⟩
    obtain ⟨p, hps, rfl⟩ := List.mem_map.mp hkm
    obtain ⟨x', t, hx', ht, hkt⟩ := hp p hps
    rw [hk] at hx'
    cases hx'
    refine ⟨p, hps, t, ht, ?_⟩
    obtain ⟨a, b⟩ := (hkey _ _).mp hkt
    have e1 : t.event = t0.event := by rw [a, hxt.1]
    have e2 : t.cluster = t0.cluster := by rw [b, hxt.2]
    rw [hc t (List.mem_of_getElem? ht), e1, e2, ← hc t0 ht0]
    exact h20
  have hgt := repeatedBins_gt sel hone htwo
  have hge : 2 ≤ hits.countP fun h => decide (Belongs tracks h) := by
    refine le_trans h20 ?_
    rw [hc t0 ht0]
    refine List.countP_mono_left ?_
    intro h _ hh
    rw [decide_eq_true_eq] at *
    exact ⟨t0, ht0, (hkey _ _).mpr hh⟩
  have : together (sel.filterMap fun p => hits[p.1]?) (repeatedBins tracks sel) = none := by
    unfold together
    rw [if_neg (by omega)]
    split
    · rename_i h heq
      rw [heq] at hhl
      simp only [List.length_cons, List.length_nil] at hhl
      omega
    · rfl
  rw [this]

/-- C169: a chunk of hits of which none belongs to a track raises a ZeroDivisionError, no track with valid hit an IndexError. -/
theorem C169_no_hit (pixelOf : Nat → Int × Int) (sx sy : Nat) (sorter : List Nat) (hits : List CHit) (tracks : List VTrack)
    (hs : BTA.Props.IsArgsort (tracks.map VTrack.key) sorter) (h : ∀ h ∈ hits, ∀ t ∈ tracks, ¬ (t.event = h.event ∧ t.cluster = h.cluster)) :
    pixelHits pixelOf sx sy sorter hits tracks = if tracks = [] then .error .noTrack else .error .zeroDivision := by
  unfold pixelHits
  split
  · rfl
  · rename_i hne
    have hlen := sel_length (hits := hits) hne hs
    dsimp only
    generalize in1dIndex (hits.map CHit.key) (tracks.map VTrack.key) (some sorter) = sel at *
    have : sel = [] := by
      rw [← List.length_eq_zero_iff, hlen, List.countP_eq_zero]
      intro x hx
      rw [decide_eq_true_eq]
      rintro ⟨t, ht, hk⟩
      unfold VTrack.key CHit.key at hk
      rw [toLex_inj, Prod.mk.injEq] at hk
      exact h x hx t ht hk
    subst this
    rfl

/-- C169: the array of relative positions has an odd number of columns, at least three (the exception for an invalid shape is never raised), and
covers at least 500 µm on both sides. -/
theorem C169_shape {K : Type} [Field K] [LinearOrder K] [IsStrictOrderedRing K] [FloorRing K] (size : K) (hs : 0 < size) :
    relShape size % 2 = 1 ∧ 3 ≤ relShape size ∧ 500 ≤ ((relShape size / 2 : Nat) : K) * size := by
  have hpos : 0 < ⌈1000 / size⌉ := Int.ceil_pos.mpr (by positivity)
  have hle : (1000 : K) ≤ ((⌈1000 / size⌉.toNat : Nat) : K) * size := by
    have h1 := Int.le_ceil (1000 / size)
    rw [div_le_iff₀ hs] at h1
    have h2 : ((⌈1000 / size⌉.toNat : Nat) : K) = (⌈1000 / size⌉ : K) := by
      have : ((⌈1000 / size⌉.toNat : Nat) : ℤ) = ⌈1000 / size⌉ := Int.toNat_of_nonneg hpos.le
      exact_mod_cast congrArg (Int.cast : ℤ → K) this
    rw [h2]; exact h1
  have hn : 0 < ⌈1000 / size⌉.toNat := by omega
  unfold relShape
  generalize ⌈1000 / size⌉.toNat = n at *
  have key : ∀ k : Nat, n ≤ 2 * k → 500 ≤ (k : K) * size := by
    intro k hk
    have : (n : K) ≤ 2 * (k : K) := by exact_mod_cast hk
    nlinarith
  split
  · exact ⟨by omega, by omega, key _ (by omega)⟩
  · exact ⟨by omega, by omega, key _ (by omega)⟩

/-- Two tracks with single hits, a third hit belongs to no track. -/
example : (pixelHits (fun b => ((b : Int), 0)) 5 5 [0, 1] [⟨7, 0, 4, 1⟩, ⟨7, 1, 9, 9⟩, ⟨8, 0, 2, 2⟩] [⟨7, 0, 1, 3⟩, ⟨8, 0, 1, 0⟩]).toOption =
    some [(3, 2, 2), (0, 3, 3)] := by decide +kernel

/-- The same with two hits in the cluster of the first track. -/
example : (pixelHits (fun b => ((b : Int), 0)) 5 5 [0, 1] [⟨7, 0, 4, 1⟩, ⟨7, 0, 5, 1⟩, ⟨8, 0, 2, 2⟩] [⟨7, 0, 2, 3⟩, ⟨8, 0, 1, 0⟩]).toOption = none := by
  decide +kernel

example : BTA.Props.IsArgsort ([⟨7, 0, 2, 3⟩, ⟨8, 0, 1, 0⟩].map VTrack.key) [0, 1] ∧
    (∀ t ∈ ([⟨7, 0, 2, 3⟩, ⟨8, 0, 1, 0⟩] : List VTrack), t.nHits =
      ([⟨7, 0, 4, 1⟩, ⟨7, 0, 5, 1⟩, ⟨8, 0, 2, 2⟩] : List CHit).countP fun h => decide (t.event = h.event ∧ t.cluster = h.cluster)) := by
  unfold BTA.Props.IsArgsort
  decide +kernel

/-! ### C170 -/

/-- C170. The histograms of frame and cluster size of a region: whatever the chunks, bin `i` is the number of values `i` in all chunks, the last bin is
that of the largest value (or there is no bin). -/
theorem C170_counts (c : List Int) (cs : List (List Int)) (h : ∀ v ∈ (c :: cs).flatten, 0 ≤ v) :
    ∃ hist, accumulate none (c :: cs) = some (some hist) ∧
      (∀ i : Nat, (hist[i]?).getD 0 = (c :: cs).flatten.countP fun v => decide (v = (i : Int))) ∧
      (∀ v ∈ (c :: cs).flatten, v < hist.length) ∧ (hist = [] ∨ ((hist.length : Int) - 1) ∈ (c :: cs).flatten) := by
  rw [accumulate_eq, bincount_some h]
  refine ⟨_, rfl, fun i => bin_get _ h i, ?_, ?_⟩
  · intro v hv
    have h1 := lt_upper hv
    have h2 := h v hv
    simp only [List.length_map, List.length_range]
    omega
  · generalize (c :: cs).flatten = l at *
    have : ∀ l : List Int, (∀ v ∈ l, 0 ≤ v) → upper l = 0 ∨ ((upper l : Int) - 1) ∈ l := by
      intro l
      induction l with
      | nil => intro _; left; rfl
      | cons a l ih =>
        intro hl
        have ha := hl a (by simp)
        rw [upper_cons]
        right
        rcases ih (fun v hv => hl v (by simp [hv])) with h0 | h0
        · rw [h0]
          have : ((max (a.toNat + 1) 0 : Nat) : Int) - 1 = a := by omega
          rw [this]; simp
        · by_cases hle : upper l ≤ a.toNat + 1
          · have : ((max (a.toNat + 1) (upper l) : Nat) : Int) - 1 = a := by omega
            rw [this]; simp
          · have : ((max (a.toNat + 1) (upper l) : Nat) : Int) - 1 = (upper l : Int) - 1 := by omega
            rw [this]; exact List.mem_cons_of_mem _ h0
    rcases this l h with h0 | h0
    · left; rw [h0]; rfl
    · right
      simpa using h0

/-- C170: independent of the chunks. -/
theorem C170_chunks (c d : List Int) (cs ds : List (List Int)) (h : (c :: cs).flatten = (d :: ds).flatten) :
    accumulate none (c :: cs) = accumulate none (d :: ds) := by
  rw [accumulate_eq, accumulate_eq, h]

/-- C170: a ValueError iff there is a negative value. -/
theorem C170_error_iff (c : List Int) (cs : List (List Int)) : accumulate none (c :: cs) = none ↔ ∃ v ∈ (c :: cs).flatten, v < 0 := by
  rw [accumulate_eq, Option.map_eq_none_iff, bincount_none_iff]

/-- C170 for the charge: bin `i` is the number of charges from `i` up to `i + 1`, if no charge is negative. -/
theorem C170_charge {K : Type} [Field K] [LinearOrder K] [IsStrictOrderedRing K] [FloorRing K] (c : List K) (cs : List (List K))
    (h : ∀ q ∈ (c :: cs).flatten, 0 ≤ q) :
    ∃ hist, chargeHist (c :: cs) = some (some hist) ∧
      ∀ i : Nat, (hist[i]?).getD 0 = (c :: cs).flatten.countP fun q => decide ((i : K) ≤ q ∧ q < (i : K) + 1) := by
  have hfl : (((c :: cs).map fun c => c.map truncInt).flatten : List Int) = (c :: cs).flatten.map truncInt := by rw [List.map_flatten]
  have hn : ∀ v ∈ ((c :: cs).map fun c => c.map truncInt).flatten, (0 : Int) ≤ v := by
    intro v hv
    rw [hfl] at hv
    obtain ⟨q, hq, rfl⟩ := List.mem_map.mp hv
    unfold truncInt
    rw [if_pos (h q hq)]
    exact Int.floor_nonneg.mpr (h q hq)
  obtain ⟨hist, h1, h2, -⟩ := C170_counts (c.map truncInt) (cs.map fun c : List K => c.map truncInt) hn
  refine ⟨hist, h1, fun i => ?_⟩
  rw [h2 i]
  have : (c.map truncInt :: cs.map fun c => c.map truncInt).flatten = (c :: cs).flatten.map truncInt := hfl
  rw [this, List.countP_map]
  refine List.countP_congr ?_
  intro q hq
  simp only [Function.comp, decide_eq_true_eq]
  unfold truncInt
  rw [if_pos (h q hq), Int.floor_eq_iff]
  push_cast
  rfl

/-- C170: a charge between -1 and 0 is counted in the first bin. -/
theorem C170_small_negative {K : Type} [Field K] [LinearOrder K] [IsStrictOrderedRing K] [FloorRing K] (q : K) (h1 : -1 < q) (h2 : q < 0) :
    chargeHist [[q]] = some (some [1]) := by
  have : truncInt q = 0 := by
    unfold truncInt
    rw [if_neg (not_le.mpr h2), Int.ceil_eq_iff]
    push_cast
    constructor <;> linarith
  unfold chargeHist
  simp only [List.map_cons, List.map_nil, this]
  decide

/-- Three chunks, with larger values in the second. -/
example : accumulate none [[1, 1], [4], [0, 1]] = some (some [1, 3, 0, 0, 1]) := by decide +kernel

/-! ### C171 -/

/-- C171. The histograms of the angles in a region succeed iff there is at least one bin, every chunk has a track in the region and the first one a track
with valid hit in the region. So a region without hit in the first chunk makes the whole call fail (ValueError). -/
theorem C171_succeeds_iff (nBins : Nat) (c : List RegionTrack) (cs : List (List RegionTrack)) :
    (∃ r, regionAngles nBins (c :: cs) = .ok r) ↔ 0 < nBins ∧ (∀ d ∈ c :: cs, d ≠ []) ∧ ∃ t ∈ c, t.hit = true := by
  unfold regionAngles
  dsimp only
  by_cases hc : c = []
  · subst hc
    simp
  · rw [if_neg hc, List.map_cons]
    unfold angleHist
    dsimp only
    by_cases hb : nBins = 0
    · subst hb; simp
    · rw [if_neg hb]
      by_cases ht : ∃ t ∈ c, t.hit = true
      · obtain ⟨t, htc, hth⟩ := ht
        have hne : (((c.filter RegionTrack.hit).map fun t => some t.angle).filterMap id : List ℝ) ≠ [] := by
          intro h
          rw [List.filterMap_eq_nil_iff] at h
          have := h (some t.angle) (List.mem_map.mpr ⟨t, List.mem_filter.mpr ⟨htc, hth⟩, rfl⟩)
          simp at this
        unfold angleRange nanmean nanstd
        rw [if_neg hne, if_neg hne]
        dsimp only
        constructor
        · intro h
          refine ⟨by omega, ?_, t, htc, hth⟩
          intro d hd
          rcases List.mem_cons.mp hd with rfl | hd
          · exact hc
          · intro hd0
            subst hd0
            obtain ⟨r, hr⟩ := h
            rw [if_pos (List.any_eq_true.mpr ⟨[], hd, rfl⟩)] at hr
            exact absurd hr (by simp)
        · rintro ⟨-, hall, -⟩
          rw [if_neg]
          · exact ⟨_, rfl⟩
          · intro h
            obtain ⟨d, hd, hd0⟩ := List.any_eq_true.mp h
            exact hall d (List.mem_cons_of_mem _ hd) (List.isEmpty_iff.mp hd0)
      · have he : c.filter RegionTrack.hit = [] := by
          rw [List.filter_eq_nil_iff]
          intro t htc hth
          exact ht ⟨t, htc, hth⟩
        rw [he]
        have : angleRange (([] : List RegionTrack).map fun t => some t.angle) = none := by
          unfold angleRange nanmean
          simp
        rw [this]
        dsimp only
        constructor
        · rintro ⟨r, hr⟩; exact absurd hr (by simp)
        · rintro ⟨-, -, h⟩; exact absurd h ht

/-- C171: the error if the first chunk has tracks in the region but no hit. -/
theorem C171_no_hit (nBins : Nat) (c : List RegionTrack) (cs : List (List RegionTrack)) (hb : 0 < nBins) (hc : c ≠ []) (h : ∀ t ∈ c, t.hit = false) :
    regionAngles nBins (c :: cs) = .error (.angle .value) := by
  unfold regionAngles
  dsimp only
  rw [if_neg hc, List.map_cons]
  have he : c.filter RegionTrack.hit = [] := by
    rw [List.filter_eq_nil_iff]
    intro t htc
    rw [h t htc]; simp
  rw [he]
  unfold angleHist
  dsimp only
  rw [if_neg (by omega)]
  have : angleRange (([] : List RegionTrack).map fun t => some t.angle) = none := by
    unfold angleRange nanmean
    simp
  rw [this]

/-- C171: every bin has the number of tracks of all chunks with valid hit in the region and an angle in the bin. -/
theorem C171_counts (nBins : Nat) (chunks : List (List RegionTrack)) (hist : List Nat) (edges : List ℝ)
    (h : regionAngles nBins chunks = .ok (hist, edges)) : hist.length = nBins ∧ BTA.Spec.ValidEdges edges ∧
      ∀ i, i < nBins → hist[i]? = some (BTA.Spec.number chunks.flatten fun t => t.hit = true ∧ BTA.Spec.InBin edges i t.angle) := by
  have ha : angleHist nBins (chunks.map fun c => (c.filter RegionTrack.hit).map fun t => some t.angle) = .ok (hist, edges) := by
    cases chunks with
    | nil => exact absurd h (by simp [regionAngles])
    | cons c cs =>
      unfold regionAngles at h
      dsimp only at h
      split at h
      · exact absurd h (by simp)
      · split at h
        · exact absurd h (by simp)
        · rename_i r hr
          split at h
          · exact absurd h (by simp)
          · rw [hr, Except.ok.inj h]
  obtain ⟨h1, h2, h3⟩ := BTA.HistStat.Props.C115_counts nBins _ hist edges ha
  refine ⟨h1, h2, fun i hi => ?_⟩
  rw [h3 i hi]
  congr 1
  classical
  have hv : ∀ l : List (List RegionTrack), (l.map fun c => (c.filter RegionTrack.hit).map fun t => some t.angle).flatten.filterMap id =
      (l.flatten.filter RegionTrack.hit).map RegionTrack.angle := by
    intro l
    induction l with
    | nil => rfl
    | cons c l ih =>
      rw [List.map_cons, List.flatten_cons, List.filterMap_append, ih, List.flatten_cons, List.filter_append, List.map_append]
      congr 1
      rw [List.filterMap_map]
      exact congrFun (List.filterMap_eq_map (f := RegionTrack.angle)) _
  unfold BTA.Spec.number BTA.HistStat.Props.valid
  rw [hv, List.filter_map, List.length_map, List.filter_filter]
  congr 1
  apply List.filter_congr
  intro t _
  rw [Bool.eq_iff_iff, Bool.and_eq_true]
  simp [and_comm]

/-- The first chunk has one track in the region, without hit; the second one has one with hit. -/
example : ([⟨false, 1⟩] : List RegionTrack) ≠ [] ∧ ∀ t ∈ ([⟨false, 1⟩] : List RegionTrack), t.hit = false := by simp

end BTA.RegionHist.Props
