import Verif.Lemmas.ResidualFit
import Mathlib.Data.Rat.Floor
/- Theorems C167, C168: the binning of the residual histograms and the bins used for the fit of the residuals against the position. -/
namespace BTA.ResFit.Props
open BTA.Binning BTA.HistStat BTA.Spec BTA.Spec.ResFit BTA.ResFit

variable {K : Type} [Field K] [LinearOrder K] [IsStrictOrderedRing K] [FloorRing K]

/-! ### C167 -/

/-- C167. With `m` bins per pixel the histogram is centred on the peak of the residuals and extends a whole number of pixels to both sides: at
least 3, at least 3 FWHM, and not a whole pixel more than needed. Every pixel has exactly `m` bins, the edges are increasing, and a residual
is counted iff it lies within this distance of the peak. Whatever the detection of the peak (a parameter) returns. -/
theorem C167_range (f : Lib K) {size : K} (hs : 0 < size) {m : Nat} (hm : 0 < m) {vs : List K} {edges : List K}
    (h : resEdges f size (some m) vs = some edges) :
    ∃ (center fwhm : K) (half : Nat),
      (∃ v vs', vs = v :: vs' ∧ findPeak f size (searchEdges f size (some m) v vs') vs = some (center, fwhm)) ∧
      PixelBins edges center size half m ∧ ValidEdges edges ∧
      (∀ v, (binIndex edges v).isSome ↔ |v - center| ≤ (half : K) * size) ∧
      3 ≤ half ∧ 3 * fwhm ≤ (half : K) * size ∧ (half : K) * size < max (3 * size) (3 * fwhm) + size := by
  cases vs with
  | nil => exact absurd h (by simp [resEdges])
  | cons v vs =>
    unfold resEdges at h
    dsimp only at h
    cases hp : findPeak f size (searchEdges f size (some m) v vs) (v :: vs) with
    | none => rw [hp] at h; exact absurd h (by simp)
    | some p =>
      rw [hp] at h
      dsimp only at h
      obtain ⟨half, h1, h2, h3, h4, h5, h6⟩ := edgesAround_bins hs hm p.1 p.2
      rw [← Option.some.inj h]
      exact ⟨p.1, p.2, half, ⟨v, vs, rfl, by rw [hp]⟩, h1, h2, h3, h4, h5, h6⟩

/-- C167. The peak: that of the detection with splines if there is one. -/
theorem C167_peak (f : Lib K) (size : K) (edges vs : List K) (p : K × K) (h : f.peak (centres edges) (histogram edges vs) = some p) :
    findPeak f size edges vs = some p := by
  unfold findPeak; rw [h]

/-- C167. Without any peak the histogram extends 18 pixels to both sides of zero. -/
theorem C167_no_peak (f : Lib K) {size : K} (hs : 0 < size) {m : Nat} (hm : 0 < m) {v : K} {vs : List K}
    (h1 : f.peak (centres (searchEdges f size (some m) v vs)) (histogram (searchEdges f size (some m) v vs) (v :: vs)) = none)
    (h2 : simplePeak (centres (searchEdges f size (some m) v vs))
      ((histogram (searchEdges f size (some m) v vs) (v :: vs)).map fun n : Nat => (n : K)) = .error .noPeak) :
    ∃ edges, resEdges f size (some m) (v :: vs) = some edges ∧ PixelBins edges 0 size 18 m := by
  have hp : findPeak f size (searchEdges f size (some m) v vs) (v :: vs) = some (0, size * 6) := by
    unfold findPeak
    rw [h1, h2]
  obtain ⟨half, h1, -, -, h4, h5, h6⟩ := edgesAround_bins hs hm 0 (size * 6)
  have hh : half = 18 := by
    have h5' : ((18 : Nat) : K) * size ≤ (half : K) * size := by push_cast; linarith
    have h6' : (half : K) * size < ((19 : Nat) : K) * size := by
      have : max (3 * size) (3 * (size * 6)) = 18 * size := by
        rw [max_eq_right (by linarith)]; ring
      rw [this] at h6
      push_cast; linarith
    have a : (18 : Nat) ≤ half := by exact_mod_cast le_of_mul_le_mul_right h5' hs
    have b : half < 19 := by exact_mod_cast lt_of_mul_lt_mul_right h6' hs.le
    omega
  refine ⟨edgesAround size (some m) 0 (size * 6), ?_, hh ▸ h1⟩
  unfold resEdges
  dsimp only
  rw [hp]

/-- C167, false expectation: that the peak of the residuals lies in the histogram. If all residuals are equal, no peak is found (the spline
needs at least four bins): the histogram is centred on zero, and if the residuals are more than 18 pixels from it, none is counted. -/
theorem C167_equal_residuals (f : Lib K) (hf : ∀ x y, x.length < 4 → f.peak x y = none) {size : K} (hs : 0 < size) {m : Nat} (hm : 0 < m)
    (v : K) (n : Nat) (hv : 18 * size < |v|) :
    ∃ edges, resEdges f size (some m) (List.replicate (n + 1) v) = some edges ∧ ValidEdges edges ∧
      ∀ i, counts (binIndex edges) (List.replicate (n + 1) v) i = 0 := by
  have hmK : (0 : K) < m := by exact_mod_cast hm
  have hw : 0 < size / (m : K) := by positivity
  have hp : findPeak f size (searchEdges f size (some m) v (List.replicate n v)) (List.replicate (n + 1) v) = some (0, size * 6) := by
    rw [searchEdges_same f hs hm]
    unfold findPeak
    rw [hf _ _ (by simp [centres]), histogram_same hw]
    dsimp only
    rw [show centres [v - size / (m : K), v, v + size / m] = [(v + (v - size / m)) / 2, (v + size / m + v) / 2] from rfl,
      simplePeak_two _ _ (Nat.succ_pos n)]
  obtain ⟨half, -, h2, h3, -, -, h6⟩ := edgesAround_bins hs hm 0 (size * 6)
  refine ⟨edgesAround size (some m) 0 (size * 6), ?_, h2, ?_⟩
  · rw [List.replicate_succ] at *
    unfold resEdges
    dsimp only
    rw [hp]
  · intro i
    unfold counts
    rw [List.countP_eq_zero]
    intro x hx
    rw [List.eq_of_mem_replicate hx]
    have hno : ¬ (binIndex (edgesAround size (some m) 0 (size * 6)) v).isSome := by
      rw [h3, sub_zero, not_le]
      have hh : (half : K) * size ≤ 18 * size := by
        have : max (3 * size) (3 * (size * 6)) = 18 * size := by
          rw [max_eq_right (by linarith)]; ring
        rw [this] at h6
        have h6' : (half : K) * size < ((19 : Nat) : K) * size := by push_cast; linarith
        have b : half < 19 := by exact_mod_cast lt_of_mul_lt_mul_right h6' hs.le
        have b' : (half : K) ≤ ((18 : Nat) : K) := by exact_mod_cast (show half ≤ 18 by omega)
        push_cast at b'
        nlinarith
      linarith
    rw [Option.not_isSome_iff_eq_none.mp hno]
    simp

/-- C167. Without the number of bins per pixel there are always 200 bins, and the histogram extends at least 6 FWHM to both sides of the peak
(twice as far as with it), a whole number of pixels. -/
theorem C167_auto (f : Lib K) {size : K} (hs : 0 < size) {vs : List K} {v center fwhm : K} (hf : 0 < fwhm)
    (h : findPeak f size (f.sturges (v :: vs)) (v :: vs) = some (center, fwhm)) :
    ∃ (edges : List K) (half : Nat), resEdges f size none (v :: vs) = some edges ∧ ValidEdges edges ∧ edges.length = 201 ∧
      (∀ v, (binIndex edges v).isSome ↔ |v - center| ≤ (half : K) * size) ∧
      6 * fwhm ≤ (half : K) * size ∧ (half : K) * size < 6 * fwhm + size := by
  have hpos : 0 < 6 * fwhm / size := by positivity
  have hc : 0 < ⌈6 * fwhm / size⌉ := Int.ceil_pos.mpr hpos
  have hcast : ((⌈6 * fwhm / size⌉.toNat : Nat) : K) = (⌈6 * fwhm / size⌉ : K) := by
    have : ((⌈6 * fwhm / size⌉.toNat : Nat) : ℤ) = ⌈6 * fwhm / size⌉ := Int.toNat_of_nonneg hc.le
    exact_mod_cast congrArg (Int.cast : ℤ → K) this
  have hck : (0 : K) < (⌈6 * fwhm / size⌉ : K) := by exact_mod_cast hc
  have hw : 0 < size * (⌈6 * fwhm / size⌉ : K) := by positivity
  have hlt : center - size * (⌈6 * fwhm / size⌉ : K) < center + size * (⌈6 * fwhm / size⌉ : K) := by linarith
  refine ⟨edgesAround size none center fwhm, ⌈6 * fwhm / size⌉.toNat, ?_, linspace_ok hlt (by omega), by simp [edgesAround, linspace], ?_, ?_, ?_⟩
  · unfold resEdges searchEdges
    dsimp only
    rw [h]
  · intro v
    unfold edgesAround
    rw [hcast, linspace_bin hlt (by omega), abs_le]
    constructor
    · rintro ⟨a, b⟩; constructor <;> linarith
    · rintro ⟨a, b⟩; constructor <;> linarith
  · rw [hcast]
    have := Int.le_ceil (6 * fwhm / size)
    rwa [div_le_iff₀ hs] at this
  · rw [hcast]
    have := mul_lt_mul_of_pos_right (Int.ceil_lt_add_one (6 * fwhm / size)) hs
    have e : (6 * fwhm / size + 1) * size = 6 * fwhm + size := by field_simp
    linarith

/-- A detection that never finds a peak. -/
def noPeak : Lib ℚ := ⟨fun _ _ => none, fun _ => [0, 1]⟩

/-- A detection that always finds a peak at 3 with FWHM 15. -/
def fixedPeak : Lib ℚ := ⟨fun _ _ => some (3, 15), fun _ => [0, 1]⟩

/-- Pixels of size 10 with 2 bins each and FWHM 15: 9 pixels are needed and 10 are taken. -/
example : ((resEdges fixedPeak 10 (some 2) [1, 5, 4]).map fun e => (e.head?, e.getLast?, e.length)) = some (some (-47), some 53, 21) := by
  decide +kernel

/-- The simple detection of the peak, with most residuals at 1 and 2. -/
example : ((resEdges noPeak 10 (some 1) [1, 1, 2, 45, -29]).map fun e => (e.head?, e.getLast?, e.length)) = some (some (-24), some 36, 7) := by
  decide +kernel

/-- Three equal residuals, 20 pixels from zero. -/
example : ((resEdges noPeak 10 (some 1) [200, 200, 200]).map fun e => (e.head?, e.getLast?)) = some (some (-180), some 180) := by decide +kernel

/-! ### C168 -/

omit [IsStrictOrderedRing K] in
/-- C168, the true part. With limits, and if at least one bin lies above the lower limit and one below the upper limit, the bins used for the fit
are exactly those with entries and a finite mean whose centre lies within the limits. -/
theorem C168_limits_partial (bins : List (PosBin K)) (hx : (bins.map PosBin.x).Pairwise (· < ·)) (limit : Option K × Option K)
    (hl : ∀ l, limit.1 = some l → ∃ b ∈ bins, l ≤ b.x) (hr : ∀ r, limit.2 = some r → ∃ b ∈ bins, b.x ≤ r) (i : Nat) (b : PosBin K)
    (hb : bins[i]? = some b) :
    (b, i) ∈ selected bins (some limit) ↔ 0 < b.count ∧ b.mean.isSome ∧ Within limit b.x := by
  have hbx : (bins.map PosBin.x)[i]? = some b.x := by rw [List.getElem?_map, hb]; rfl
  have hi : i < bins.length := (List.getElem?_eq_some_iff.mp hb).1
  obtain ⟨l, r⟩ := limit
  have h1 : selectLeft (bins.map PosBin.x) l ≤ i ↔ ∀ l', l = some l' → l' ≤ b.x := by
    cases l with
    | none => simp [selectLeft]
    | some l =>
      obtain ⟨c, hc, hlc⟩ := hl l rfl
      rw [selectLeft_iff hx ⟨c.x, List.mem_map.mpr ⟨c, hc, rfl⟩, hlc⟩ hbx]
      simp
  have h2 : i < selectRight (bins.map PosBin.x) r ↔ ∀ r', r = some r' → b.x ≤ r' := by
    cases r with
    | none => simp [selectRight, hi]
    | some r =>
      obtain ⟨c, hc, hlc⟩ := hr r rfl
      rw [selectRight_iff hx ⟨c.x, List.mem_map.mpr ⟨c, hc, rfl⟩, hlc⟩ hbx]
      simp
  rw [mem_selected]
  unfold inRange
  dsimp only
  rw [Bool.and_eq_true, Bool.and_eq_true, decide_eq_true_eq, decide_eq_true_eq, decide_eq_true_eq, h1, h2]
  unfold Within
  tauto

omit [IsStrictOrderedRing K] in
/-- C168, false in general. If all bins lie below the lower limit, this limit is ignored: with any lower limit above the bins, all bins with
entries and a finite mean up to the upper limit are used, though none lies within the limits. -/
theorem C168_lower_ignored (bins : List (PosBin K)) (l : K) (h : ∀ b ∈ bins, b.x < l) (i : Nat) (b : PosBin K) (hb : bins[i]? = some b) :
    (b, i) ∈ selected bins (some (some l, none)) ↔ 0 < b.count ∧ b.mean.isSome := by
  have hi : i < bins.length := (List.getElem?_eq_some_iff.mp hb).1
  have h0 : selectLeft (bins.map PosBin.x) (some l) = 0 := by
    refine selectLeft_none ?_
    intro x hx
    obtain ⟨c, hc, rfl⟩ := List.mem_map.mp hx
    exact h c hc
  rw [mem_selected]
  unfold inRange
  dsimp only
  rw [h0]
  rw [hb]
  simp [selectRight, hi]

omit [IsStrictOrderedRing K] in
/-- C168, false in general. The same for an upper limit below all bins. -/
theorem C168_upper_ignored (bins : List (PosBin K)) (r : K) (h : ∀ b ∈ bins, r < b.x) (i : Nat) (b : PosBin K) (hb : bins[i]? = some b) :
    (b, i) ∈ selected bins (some (none, some r)) ↔ 0 < b.count ∧ b.mean.isSome := by
  have hi : i < bins.length := (List.getElem?_eq_some_iff.mp hb).1
  have h0 : selectRight (bins.map PosBin.x) (some r) = bins.length := by
    rw [selectRight_none, List.length_map]
    intro x hx
    obtain ⟨c, hc, rfl⟩ := List.mem_map.mp hx
    exact h c hc
  rw [mem_selected]
  unfold inRange
  dsimp only
  rw [h0]
  rw [hb]
  simp [selectLeft, hi]

/-- C168. Without limits, a bin is used only if a bin with at least as many entries is used too (if its mean is finite), and of `n` bins with
entries more than 0.32 (n - 1) are not used. -/
theorem C168_fullest (bins : List (PosBin K)) (i j : Nat) (b c : PosBin K) (hb : (b, i) ∈ selected bins none) (hc : bins[j]? = some c)
    (hm : c.mean.isSome) (hle : b.count ≤ c.count) : (c, j) ∈ selected bins none := by
  rw [mem_selected] at *
  refine ⟨hc, ?_, hm⟩
  have h := hb.2.1
  unfold inRange at *
  dsimp only at *
  rw [Bool.and_eq_true, decide_eq_true_eq, decide_eq_true_eq] at *
  refine ⟨by omega, lt_of_lt_of_le h.2 ?_⟩
  exact_mod_cast hle

theorem C168_fraction (bins : List (PosBin K)) (h : ∃ b ∈ bins, 0 < b.count) :
    (((bins.filter fun b => decide (0 < b.count)).length - 1 : Nat) : K) * (32 / 100) <
      (((bins.zipIdx.filter fun p => decide (0 < p.1.count)).countP fun p => decide (¬ inRange bins none p.2 p.1 = true) : Nat) : K) := by
  obtain ⟨b, hb, hpos⟩ := h
  have hne : (bins.filter fun b => decide (0 < b.count)).map (fun b => (b.count : K)) ≠ [] := by
    intro h0
    rw [List.map_eq_nil_iff, List.filter_eq_nil_iff] at h0
    exact h0 b hb (by simpa using hpos)
  have := percentile_count (q := (100 - 68 : K)) hne (by norm_num) (by norm_num)
  rw [List.length_map, List.countP_map] at this
  have e : ((100 : K) - 68) / 100 = 32 / 100 := by norm_num
  rw [e] at this
  refine lt_of_lt_of_eq this ?_
  congr 1
  have hz : bins.filter (fun b => decide (0 < b.count)) = (bins.zipIdx.filter fun p => decide (0 < p.1.count)).map Prod.fst := by
    conv_lhs => rw [← List.zipIdx_map_fst 0 bins]
    rw [List.filter_map]
    rfl
  generalize hP : percentile ((100 : K) - 68) _ = P at *
  rw [hz, List.countP_map]
  refine List.countP_congr ?_
  intro p hp
  rw [List.mem_filter] at hp
  unfold inRange
  dsimp only
  rw [hP]
  simp only [Function.comp, decide_eq_true_eq, Bool.and_eq_true, not_and, not_lt]
  constructor
  · intro h _; exact h
  · intro h; exact h (by simpa using hp.2)

/-- C168, false in general. Without limits and with the same number of entries in all bins that have any, no bin is used and the result is NaN. -/
theorem C168_equal (curveFit : List (K × K × K) → K × K) (bins : List (PosBin K)) (n : Nat) (h : ∀ b ∈ bins, 0 < b.count → b.count = n) :
    selected bins none = [] ∧ fitPosition curveFit bins none = none := by
  have hs : selected bins none = [] := by
    rw [List.eq_nil_iff_forall_not_mem]
    rintro ⟨b, i⟩ hbi
    rw [mem_selected] at hbi
    obtain ⟨hb, hr, -⟩ := hbi
    have hbm : b ∈ bins := List.mem_of_getElem? hb
    unfold inRange at hr
    dsimp only at hr
    rw [Bool.and_eq_true, decide_eq_true_eq, decide_eq_true_eq] at hr
    obtain ⟨hpos, hlt⟩ := hr
    have hl : (bins.filter fun b => decide (0 < b.count)).map (fun b => (b.count : K)) =
        List.replicate (bins.filter fun b => decide (0 < b.count)).length (n : K) := by
      rw [List.eq_replicate_iff]
      refine ⟨by simp, ?_⟩
      intro x hx
      obtain ⟨c, hc, rfl⟩ := List.mem_map.mp hx
      rw [List.mem_filter] at hc
      rw [h c hc.1 (by simpa using hc.2)]
    rw [hl, percentile_replicate _ _ _ ?_ (by norm_num) (by norm_num), h b hbm hpos] at hlt
    · exact absurd hlt (lt_irrefl _)
    · exact List.length_pos_iff_exists_mem.mpr ⟨b, List.mem_filter.mpr ⟨hbm, by simpa using hpos⟩⟩
  refine ⟨hs, ?_⟩
  unfold fitPosition
  rw [hs]
  rfl

omit [IsStrictOrderedRing K] in
/-- C168. The result is NaN iff fewer than two bins are used. -/
theorem C168_nan_iff (curveFit : List (K × K × K) → K × K) (bins : List (PosBin K)) (limit : Option (Option K × Option K)) :
    fitPosition curveFit bins limit = none ↔ (selected bins limit).length < 2 := by
  unfold fitPosition
  dsimp only
  split
  · constructor
    · intro h; exact absurd h (by simp)
    · intro h; omega
  · exact ⟨fun _ => by omega, fun _ => rfl⟩

/-- The weighted sum of squares that `curve_fit` minimises, for data of positions, values and errors. -/
def weightedSquares (data : List (K × K × K)) (c : K × K) : K := (data.map fun p => ((p.2.1 - (c.1 + c.2 * p.1)) / p.2.2) ^ 2).sum

/-- The sum of squares in which a bin counts with the square of its number of entries. -/
def binSquares (bins : List (PosBin K)) (c : K × K) : K := (bins.map fun b => ((b.count : K) * (b.mean.getD 0 - (c.1 + c.2 * b.x))) ^ 2).sum

theorem selected_count (bins : List (PosBin K)) (limit : Option (Option K × Option K)) (p : PosBin K × Nat) (h : p ∈ selected bins limit) :
    0 < p.1.count := by
  obtain ⟨b, i⟩ := p
  rw [mem_selected] at h
  have h2 := h.2.1
  unfold inRange at h2
  cases limit with
  | none =>
    dsimp only at h2
    rw [Bool.and_eq_true, decide_eq_true_eq] at h2
    exact h2.1
  | some l =>
    dsimp only at h2
    rw [Bool.and_eq_true, decide_eq_true_eq] at h2
    exact h2.1

/-- C168. If the library minimises the weighted squares, then the line minimises the sum over the used bins of the squared distances, each weighted
with the square of the number of entries: bins with more entries have more influence. -/
theorem C168_weights (curveFit : List (K × K × K) → K × K) (hfit : ∀ data c, weightedSquares data (curveFit data) ≤ weightedSquares data c)
    (bins : List (PosBin K)) (limit : Option (Option K × Option K)) (line : K × K) (h : fitPosition curveFit bins limit = some line) (c : K × K) :
    binSquares ((selected bins limit).map Prod.fst) line ≤ binSquares ((selected bins limit).map Prod.fst) c := by
  unfold fitPosition at h
  dsimp only at h
  split at h
  · rename_i hl
    injection h with h
    set sel := selected bins limit with hsel
    set S : K := (sel.map fun q => (q.1.count : K)).sum with hS
    have hSpos : 0 < S := by
      refine List.sum_pos _ ?_ ?_
      · intro x hx
        obtain ⟨p, hp, rfl⟩ := List.mem_map.mp hx
        exact_mod_cast selected_count bins limit p hp
      · intro h0
        rw [List.map_eq_nil_iff] at h0
        rw [h0] at hl
        exact absurd hl (by simp)
    have key : ∀ d : K × K, weightedSquares (sel.map fun p => (p.1.x, p.1.mean.getD 0, S / (p.1.count : K))) d = (1 / S) ^ 2 * binSquares (sel.map Prod.fst) d := by
      intro d
      unfold weightedSquares binSquares
      rw [List.map_map, List.map_map, ← List.sum_map_mul_left]
      congr 1
      refine List.map_congr_left fun p hp => ?_
      have : (p.1.count : K) ≠ 0 := by
        exact_mod_cast (selected_count bins limit p hp).ne'
      have hS0 := hSpos.ne'
      simp only [Function.comp]
      field_simp
    have := hfit (sel.map fun p => (p.1.x, p.1.mean.getD 0, S / (p.1.count : K))) c
    rw [h, key, key] at this
    exact le_of_mul_le_mul_left this (by positivity)
  · cases h

/-- Four bins, the third without entries. -/
def demo : List (PosBin ℚ) := [⟨1, 5, some 2⟩, ⟨2, 7, some 3⟩, ⟨3, 0, none⟩, ⟨4, 9, some 4⟩]

/-- A limit of 1.5 to 4 takes the second and the fourth bin; a lower limit of 5, above all bins, takes all three; without limits the emptiest bin
is left out. -/
example : (selected demo (some (some (3 / 2), some 4))).map Prod.snd = [1, 3] ∧ (selected demo (some (some 5, none))).map Prod.snd = [0, 1, 3] ∧
    (selected demo none).map Prod.snd = [1, 3] := by
  decide +kernel

example : (demo.map PosBin.x).Pairwise (· < ·) ∧ (∃ b ∈ demo, 3 / 2 ≤ b.x) ∧ (∃ b ∈ demo, b.x ≤ 4) := by decide +kernel

end BTA.ResFit.Props
