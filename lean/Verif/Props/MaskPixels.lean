import Verif.Lemmas.MaskPixels
import Verif.Props.Hist
import Mathlib.Data.Rat.Floor
import Mathlib.Algebra.Order.Ring.Rat
import Mathlib.Tactic.NormNum
import Mathlib.Tactic.Positivity

/-! Property C46: the noisy pixel search. -/

namespace BTA.Mask.Props
open BTA.Props BTA.Mask BTA.Mask.Spec

variable {K : Type} [Field K] [LinearOrder K]

/-- Number of hits in the pixel; columns and rows of the hit table start at 1. -/
def hitCount (hits : List (Int × Int)) : Img := fun p => (hits.count ((p.1 + 1 : Int), (p.2 + 1 : Int)) : Int)

/-- The hit table can be histogrammed: all hits are inside of the sensor (with at most 2^32 pixels) and there are fewer than
2^31 of them. -/
structure Valid (s : Setup K) (hits : List (Int × Int)) : Prop where
  inside : ∀ h ∈ hits, (1 ≤ h.1 ∧ h.1 ≤ s.nx) ∧ (1 ≤ h.2 ∧ h.2 ≤ s.ny)
  few : hits.length < 2 ^ 31
  nx : s.nx ≤ 2 ^ 31
  ny : s.ny ≤ 2 ^ 31
  pixels : s.nx * s.ny ≤ 2 ^ 32
  size : 0 < s.size.1 ∧ 0 < s.size.2

theorem occupancy (s : Setup K) (hits : List (Int × Int)) (hv : Valid s hits) :
    ∃ h, hist2d (hits.map fun h => (h.1 - 1, h.2 - 1)) s.nx s.ny = .ok h ∧
      ∀ p, IsPixel s p → (h p.1 p.2 : Int) = hitCount hits p := by
  have hx := hv.nx
  have hy := hv.ny
  have hr : ∀ p ∈ hits.map (fun h => (h.1 - 1, h.2 - 1)), Int32Range p.1 ∧ Int32Range p.2 := by
    intro p hp
    obtain ⟨q, hq, rfl⟩ := List.mem_map.mp hp
    have := hv.inside q hq
    unfold Int32Range
    dsimp only
    omega
  have hcount : ∀ q : Int × Int, (hits.map fun h => (h.1 - 1, h.2 - 1)).count q = hits.count (q.1 + 1, q.2 + 1) := by
    intro q
    rw [List.count, List.countP_map, List.count]
    apply List.countP_congr
    rintro ⟨a, b⟩ -
    obtain ⟨c, d⟩ := q
    simp only [Function.comp, beq_iff_eq, Prod.mk.injEq]
    omega
  have h := C15_hist_2d _ s.nx s.ny hx hy hv.pixels hr
  cases he : hist2d (hits.map fun h => (h.1 - 1, h.2 - 1)) s.nx s.ny with
  | ok g =>
    rw [he] at h
    refine ⟨g, rfl, fun p hp => ?_⟩
    rw [(h.2 p.1 p.2 hp.1 hp.2).1, hcount]
    rfl
  | error e =>
    rw [he] at h
    cases e with
    | indexOutOfRange =>
      obtain ⟨p, hp, hn⟩ := h
      obtain ⟨q, hq, rfl⟩ := List.mem_map.mp hp
      have := hv.inside q hq
      exact absurd (by unfold Inside2; dsimp only; omega) hn
    | binFull =>
      obtain ⟨p, -, hp⟩ := h
      rw [hcount] at hp
      have := List.count_le_length (a := (p.1 + 1, p.2 + 1)) (l := hits)
      have := hv.few
      omega

/-- C46: the search of `mask_pixels` is the specified one. It ends after at most one iteration more than there are pixels, whatever
the counts; it ends as soon as an iteration finds no new pixel or the maximum number of iterations is reached, not earlier. -/
theorem C46_search (s : Setup K) (hits : List (Int × Int)) (hv : Valid s hits) :
    ∃ m b M counts, Search s counts m b M ∧ (∀ p, IsPixel s p → counts p = hitCount hits p) ∧
    ∃ mask n, (∀ fuel, s.nx * s.ny < fuel → maskPixels s hits fuel = .ok (some (mask, n))) ∧
      1 ≤ n ∧ n ≤ s.nx * s.ny + 1 ∧ (s.iterations ≠ 0 → n ≤ s.iterations) ∧
      (∀ p, IsPixel s p → (mask p = true ↔ p ∈ M n)) ∧
      (∀ k, k + 1 < n → ∃ p, IsPixel s p ∧ p ∈ M (k + 1) ∧ p ∉ M k) ∧
      ((∀ p, IsPixel s p → p ∈ M n → p ∈ M (n - 1)) ∨ s.iterations = n) := by
  obtain ⟨h, hh, hc⟩ := occupancy s hits hv
  set counts : Img := fun p => (h p.1 p.2 : Int) with hcd
  have hsm : Small s counts := by
    intro p hp
    have := List.count_le_length (a := ((p.1 + 1 : Int), (p.2 + 1 : Int))) (l := hits)
    have := hv.few
    rw [show counts p = _ from hc p hp]
    unfold hitCount
    omega
  have hS := search_iter s counts hv.size.1 hv.size.2 hsm
  refine ⟨_, _, _, counts, hS, hc, ?_⟩
  set st0 : State := ⟨counts, fun _ => false⟩ with hst
  have hun : s.unmasked st0 < s.nx * s.ny + 1 := by
    have : s.unmasked st0 ≤ s.pixels.length := List.length_filter_le _ _
    rw [pixels_length] at this
    omega
  obtain ⟨⟨mask, n⟩, hr⟩ := Option.isSome_iff_exists.mp (loop_ends s (s.nx * s.ny + 1) 0 st0 hun)
  obtain ⟨j, hn, hj, hm, hcont, hstop⟩ := loop_spec hr
  rw [Nat.zero_add] at hn
  subst hn
  refine ⟨mask, j + 1, ?_, by omega, by omega, ?_, ?_, ?_, ?_⟩
  · intro fuel hf
    unfold maskPixels
    rw [hh]
    dsimp only
    rw [show fuel = s.nx * s.ny + 1 + (fuel - (s.nx * s.ny + 1)) by omega]
    rw [← loop_mono hr]
  · intro hi
    rcases Nat.eq_zero_or_pos j with h0 | h0
    · omega
    · have := (hcont (j - 1) (by omega)).2
      rw [not_and] at this
      have := this hi
      omega
  · intro p _; rw [hm]; rfl
  · intro k hk
    have := (hcont k (by omega)).1
    rw [ne_eq, step_new] at this
    push Not at this
    obtain ⟨p, hp, hno, hmk⟩ := this
    refine ⟨p, hp, (hS.mask_succ k p hp).mpr (.inr ((noisy_iff s _ p).mp hno)), ?_⟩
    exact hmk
  · unfold Setup.Continues at hstop
    rw [not_and_or, not_not, not_not] at hstop
    rcases hstop with h0 | h0
    · left
      intro p hp hpm
      rw [step_new] at h0
      rcases (hS.mask_succ j p hp).mp hpm with h1 | h1
      · exact h1
      · exact h0 p hp ((noisy_iff s _ p).mpr h1)
    · right
      rcases Nat.eq_zero_or_pos j with h1 | h1
      · omega
      · have := (hcont (j - 1) (by omega)).2
        rw [not_and] at this
        have := this h0.1
        omega

/-- C46: hits outside of the sensor raise an exception, no mask is made. -/
theorem C46_outside (s : Setup K) (hits : List (Int × Int)) (hx : s.nx ≤ 2 ^ 31) (hy : s.ny ≤ 2 ^ 31) (hn : s.nx * s.ny ≤ 2 ^ 32)
    (hr : ∀ p ∈ hits, (0 ≤ p.1 ∧ p.1 < 2 ^ 16) ∧ (0 ≤ p.2 ∧ p.2 < 2 ^ 16)) (fuel : Nat) (p : Int × Int) (hp : p ∈ hits)
    (hout : p.1 = 0 ∨ s.nx < p.1 ∨ p.2 = 0 ∨ s.ny < p.2) : ∃ e, maskPixels s hits fuel = .error e := by
  have h := C15_hist_2d (hits.map fun h => (h.1 - 1, h.2 - 1)) s.nx s.ny hx hy hn (by
    intro q hq
    obtain ⟨a, ha, rfl⟩ := List.mem_map.mp hq
    have := hr a ha
    unfold Int32Range
    dsimp only
    omega)
  unfold maskPixels
  cases he : hist2d (hits.map fun h => (h.1 - 1, h.2 - 1)) s.nx s.ny with
  | error e => exact ⟨e, rfl⟩
  | ok g =>
    rw [he] at h
    have := h.1 _ (List.mem_map_of_mem hp)
    unfold Inside2 at this
    dsimp only at this
    omega

/-! ### Consequences, from the specification only -/

variable {s : Setup K} {counts : Img} {m b : Nat → Img} {M : Nat → Set (Nat × Nat)}

/-- C46: masked pixels stay masked. -/
theorem C46_stay_masked (h : Search s counts m b M) {k l : Nat} (hkl : k ≤ l) {p : Nat × Nat} (hp : IsPixel s p)
    (hk : p ∈ M k) : p ∈ M l := by
  induction hkl with
  | refl => exact hk
  | step _ ih => exact (h.mask_succ _ p hp).mpr (.inl ih)

/-- C46: the counts of unmasked pixels are never changed. -/
theorem C46_unmasked_counts (h : Search s counts m b M) (k : Nat) (p : Nat × Nat) (hp : IsPixel s p) (hk : p ∉ M k) :
    m k p = counts p := by
  induction k with
  | zero => rw [h.counts_zero]
  | succ k ih =>
    rw [h.counts_unmasked k p hp hk]
    exact ih fun h' => hk ((h.mask_succ k p hp).mpr (.inl h'))

/-- C46: at the end (no new pixel) no unmasked pixel exceeds the threshold; the threshold is computed from the measured counts of the
unmasked pixels and the background of the masked ones. -/
theorem C46_nothing_left (h : Search s counts m b M) (n : Nat) (hn : 1 ≤ n) (hend : ∀ p, IsPixel s p → p ∈ M n → p ∈ M (n - 1))
    (p : Nat × Nat) (hp : IsPixel s p) (hu : p ∉ M n) :
    m (n - 1) p = counts p ∧ ¬ Exceeds s (m (n - 1)) (b (n - 1)) p ∧
    (∀ q, IsPixel s q → q ∈ M n → 2 ≤ n ∧ m (n - 1) q = b (n - 2) q) := by
  obtain ⟨n, rfl⟩ := Nat.exists_eq_add_of_le' hn
  simp only [Nat.add_sub_cancel] at *
  have hu' : p ∉ M n := fun h' => hu ((h.mask_succ n p hp).mpr (.inl h'))
  refine ⟨C46_unmasked_counts h n p hp hu', fun he => hu ((h.mask_succ n p hp).mpr (.inr he)), ?_⟩
  intro q hq hqm
  have hqn := hend q hq hqm
  cases n with
  | zero => rw [h.mask_zero] at hqn; exact absurd hqn (by simp)
  | succ n => exact ⟨by omega, h.counts_masked n q hq hqn⟩

/-- C46: every masked pixel has been above threshold with its measured count; in particular pixels without hits are never masked. -/
theorem C46_masked_was_noisy (h : Search s counts m b M) (n : Nat) (p : Nat × Nat) (hp : IsPixel s p) (hm : p ∈ M n) :
    ∃ k < n, m k p = counts p ∧ Exceeds s (m k) (b k) p ∧ counts p ≠ 0 := by
  induction n with
  | zero => rw [h.mask_zero] at hm; exact absurd hm (by simp)
  | succ n ih =>
    by_cases hn : p ∈ M n
    · obtain ⟨k, hk, hr⟩ := ih hn; exact ⟨k, by omega, hr⟩
    · have hc := C46_unmasked_counts h n p hp hn
      rcases (h.mask_succ n p hp).mp hm with h' | h'
      · exact absurd h' hn
      · exact ⟨n, by omega, hc, h', by rw [← hc]; exact h'.1⟩

/-- C46: with a threshold that is not negative, a masked pixel has more hits than the median of its neighbourhood. -/
theorem C46_above_background [IsStrictOrderedRing K] (h : Search s counts m b M) (ht : 0 ≤ s.threshold)
    (hsqrt : ∀ x, 0 ≤ s.sqrt x) (n : Nat) (p : Nat × Nat) (hp : IsPixel s p) (hm : p ∈ M n) :
    ∃ k < n, ∃ v, IsMedian (neighbours s (m k) p) v ∧ v < counts p := by
  obtain ⟨k, hk, hc, he, -⟩ := C46_masked_was_noisy h n p hp hm
  refine ⟨k, hk, b k p, h.background k p hp, ?_⟩
  have h0 : 0 ≤ s.threshold * Spec.spread s (m k) (b k) * s.sqrt (m k p : K) := by
    refine mul_nonneg (mul_nonneg ht ?_) (hsqrt _)
    exact hsqrt _
  have := h0.trans_lt he.2
  rw [hc] at this
  have h2 : 0 < counts p - b k p := by exact_mod_cast this
  omega

/-! ### Concrete case -/

/-- Square root rounded down to a tenth, up to 100. -/
def root (q : ℚ) : ℚ := (((List.range 1000).countP fun k => decide ((k + 1 : ℚ) * (k + 1) ≤ 100 * q) : Nat) : ℚ) / 10

/-- 3 x 3 pixels, filter 3 x 3, threshold of 2 standard deviations. -/
def three : Setup ℚ := ⟨3, 3, (3, 3), 2, 0, root⟩

/-- One hit in each pixel, 15 further hits in the pixel in the middle. -/
def noise : List (Int × Int) := ([1, 2, 3].flatMap fun c => [1, 2, 3].map fun r => (c, r)) ++ List.replicate 15 (2, 2)

example : Valid three noise :=
  ⟨by decide +kernel, by decide +kernel, by decide, by decide, by decide, by decide⟩

/-- A limit of one iteration ends the search after one iteration; without hits there is nothing to mask. -/
example : (maskPixels { three with iterations := 1 } noise 10).toOption.map (fun r => r.map fun x => (three.pixels.filter x.1, x.2)) =
      some (some ([(1, 1)], 1)) ∧
    (maskPixels three [] 10).toOption.map (fun r => r.map fun x => (three.pixels.filter x.1, x.2)) = some (some ([], 1)) := by
  decide +kernel

/-- A strip of 3 pixels with 1, 9 and 1 hits: the complete search needs a second iteration, which finds nothing. -/
example : (maskPixels (K := ℚ) ⟨1, 3, (1, 3), 1, 0, fun q => (((List.range 5).countP fun k => decide ((k + 1 : ℚ) * (k + 1) ≤ q) : Nat) : ℚ)⟩
      ((1, 1) :: (1, 3) :: List.replicate 9 (1, 2)) 4).toOption.map (fun r => r.map fun x => ([x.1 (0, 0), x.1 (0, 1), x.1 (0, 2)], x.2)) =
    some (some ([false, true, false], 2)) := by
  decide +kernel

/-- A hit in column 4 of a sensor with 3 columns. -/
example : (maskPixels three [(4, 1)] 10).toOption.isNone := by decide +kernel

/-- Even filter sizes are covered as well. -/
example : IsMedian (neighbours { three with size := (2, 2) } (fun p => p.1 + 1) (1, 1)) 2 := by
  unfold IsMedian; decide +kernel

end BTA.Mask.Props
