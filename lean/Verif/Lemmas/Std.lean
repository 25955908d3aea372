import Verif.Lemmas.HistStat
import Mathlib.Algebra.QuadraticDiscriminant
/-
Lemmas about mean and standard deviation of lists of numbers.
-/
namespace BTA.HistStat

variable {ι : Type}

theorem sum_map_add' (l : List ι) (f g : ι → ℝ) : (l.map fun i => f i + g i).sum = (l.map f).sum + (l.map g).sum := List.sum_map_add

theorem sum_map_mul' (l : List ι) (c : ℝ) (f : ι → ℝ) : (l.map fun i => c * f i).sum = c * (l.map f).sum := by
  rw [List.sum_map_mul_left]

theorem sum_map_const' (l : List ι) (c : ℝ) : (l.map fun _ => c).sum = l.length * c := by
  simp

theorem sum_map_nonneg (l : List ι) (f : ι → ℝ) (h : ∀ i ∈ l, 0 ≤ f i) : 0 ≤ (l.map f).sum :=
  List.sum_nonneg fun x hx => by
    obtain ⟨i, hi, rfl⟩ := List.mem_map.mp hx
    exact h i hi

theorem sum_map_le (l : List ι) (f g : ι → ℝ) (h : ∀ i ∈ l, f i ≤ g i) : (l.map f).sum ≤ (l.map g).sum := List.sum_le_sum h

/-- Cauchy-Schwarz. -/
theorem cauchy (l : List ι) (f g : ι → ℝ) :
    (l.map fun i => f i * g i).sum ^ 2 ≤ (l.map fun i => f i ^ 2).sum * (l.map fun i => g i ^ 2).sum := by
  have h : ∀ x : ℝ, 0 ≤ (l.map fun i => f i ^ 2).sum * (x * x) + (2 * (l.map fun i => f i * g i).sum) * x + (l.map fun i => g i ^ 2).sum := by
    intro x
    have e : (l.map fun i => (f i * x + g i) ^ 2).sum =
        (l.map fun i => f i ^ 2).sum * (x * x) + (2 * (l.map fun i => f i * g i).sum) * x + (l.map fun i => g i ^ 2).sum := by
      have : ∀ i, (f i * x + g i) ^ 2 = (x * x) * f i ^ 2 + (2 * x) * (f i * g i) + g i ^ 2 := fun i => by ring
      simp only [this]
      rw [sum_map_add', sum_map_add', sum_map_mul', sum_map_mul']
      ring
    rw [← e]
    exact sum_map_nonneg _ _ fun i _ => sq_nonneg _
  have := discrim_le_zero h
  unfold discrim at this
  nlinarith

theorem sqrt_sum_add (l : List ι) (f g : ι → ℝ) : Real.sqrt (l.map fun i => (f i + g i) ^ 2).sum ≤
    Real.sqrt (l.map fun i => f i ^ 2).sum + Real.sqrt (l.map fun i => g i ^ 2).sum := by
  set A := (l.map fun i => f i ^ 2).sum with hA
  set B := (l.map fun i => g i ^ 2).sum with hB
  set C := (l.map fun i => f i * g i).sum with hC
  have hA0 : 0 ≤ A := sum_map_nonneg _ _ fun i _ => sq_nonneg _
  have hB0 : 0 ≤ B := sum_map_nonneg _ _ fun i _ => sq_nonneg _
  have hCS : C ^ 2 ≤ A * B := cauchy l f g
  have e : (l.map fun i => (f i + g i) ^ 2).sum = A + 2 * C + B := by
    have : ∀ i, (f i + g i) ^ 2 = f i ^ 2 + 2 * (f i * g i) + g i ^ 2 := fun i => by ring
    simp only [this]
    rw [sum_map_add', sum_map_add', sum_map_mul']
  have hC1 : C ≤ Real.sqrt A * Real.sqrt B := by
    rw [← Real.sqrt_mul hA0]
    exact Real.le_sqrt_of_sq_le hCS
  rw [e]
  refine Real.sqrt_le_iff.mpr ⟨by positivity, ?_⟩
  nlinarith [Real.sq_sqrt hA0, Real.sq_sqrt hB0]

/-- Mean of a function on a list. -/
noncomputable def avg (l : List ι) (f : ι → ℝ) : ℝ := (l.map f).sum / l.length

theorem std_map (l : List ι) (f : ι → ℝ) : std (l.map f) = Real.sqrt ((l.map fun i => (f i - avg l f) ^ 2).sum / l.length) := by
  unfold std avg
  rw [List.map_map, List.length_map]
  rfl

theorem avg_mul (l : List ι) (h : l ≠ []) (f : ι → ℝ) : avg l f * l.length = (l.map f).sum := by
  have : (l.length : ℝ) ≠ 0 := Nat.cast_ne_zero.mpr (by rwa [Ne, List.length_eq_zero_iff])
  unfold avg
  field_simp

theorem sum_sq_dev (l : List ι) (h : l ≠ []) (f : ι → ℝ) :
    (l.map fun i => (f i - avg l f) ^ 2).sum = (l.map fun i => f i ^ 2).sum - l.length * avg l f ^ 2 := by
  have e : ∀ i, (f i - avg l f) ^ 2 = f i ^ 2 + (-2 * avg l f) * f i + avg l f ^ 2 := fun i => by ring
  simp only [e]
  rw [sum_map_add', sum_map_add', sum_map_mul', sum_map_const', ← avg_mul l h f]
  ring

/-- Numbers that differ by at most `d` have means and standard deviations that differ by at most `d`. -/
theorem avg_close (l : List ι) (h : l ≠ []) (f g : ι → ℝ) (d : ℝ) (hd : ∀ i ∈ l, |f i - g i| ≤ d) : |avg l f - avg l g| ≤ d := by
  have hn : (0 : ℝ) < l.length := Nat.cast_pos.mpr (List.length_pos_iff.mpr h)
  have e : avg l f - avg l g = ((l.map fun i => f i - g i).sum) / l.length := by
    unfold avg
    have : (l.map fun i => f i - g i).sum = (l.map f).sum + (-1) * (l.map g).sum := by
      rw [← sum_map_mul', ← sum_map_add']
      congr 1
      refine List.map_congr_left fun i _ => by ring
    rw [this]
    ring
  have h1 : (l.map fun i => f i - g i).sum ≤ l.length * d := by
    rw [← sum_map_const']
    exact sum_map_le _ _ _ fun i hi => (abs_le.mp (hd i hi)).2
  have h2 : l.length * (-d) ≤ (l.map fun i => f i - g i).sum := by
    rw [← sum_map_const']
    exact sum_map_le _ _ _ fun i hi => (abs_le.mp (hd i hi)).1
  rw [e, abs_le]
  constructor
  · rw [le_div_iff₀ hn]; linarith
  · rw [div_le_iff₀ hn]; linarith

theorem std_le (l : List ι) (h : l ≠ []) (f g : ι → ℝ) (d : ℝ) (hd : ∀ i ∈ l, |f i - g i| ≤ d) : std (l.map f) ≤ std (l.map g) + d := by
  have hn : (0 : ℝ) < l.length := Nat.cast_pos.mpr (List.length_pos_iff.mpr h)
  obtain ⟨i0, hi0⟩ := List.exists_mem_of_ne_nil l h
  have hd0 : 0 ≤ d := (abs_nonneg _).trans (hd i0 hi0)
  rw [std_map, std_map, Real.sqrt_div' _ hn.le, Real.sqrt_div' _ hn.le]
  set e : ι → ℝ := fun i => f i - g i with he
  have hae : avg l f - avg l g = avg l e := by
    unfold avg
    have : (l.map e).sum = (l.map f).sum + (-1) * (l.map g).sum := by
      rw [← sum_map_mul', ← sum_map_add']
      congr 1
      refine List.map_congr_left fun i _ => by rw [he]; ring
    rw [this]
    ring
  have hsplit : (l.map fun i => (f i - avg l f) ^ 2).sum = (l.map fun i => ((g i - avg l g) + (e i - avg l e)) ^ 2).sum := by
    congr 1
    refine List.map_congr_left fun i _ => ?_
    rw [← hae, he]
    ring
  have h1 := sqrt_sum_add l (fun i => g i - avg l g) (fun i => e i - avg l e)
  rw [← hsplit] at h1
  have h2 : (l.map fun i => (e i - avg l e) ^ 2).sum ≤ l.length * d ^ 2 := by
    rw [sum_sq_dev l h e]
    have : (l.map fun i => e i ^ 2).sum ≤ (l.map fun _ => d ^ 2).sum := sum_map_le _ _ _ fun i hi => by
      have := hd i hi
      rw [← sq_abs]
      exact pow_le_pow_left₀ (abs_nonneg _) this 2
    rw [sum_map_const'] at this
    nlinarith [sq_nonneg (avg l e)]
  have h3 : Real.sqrt (l.map fun i => (e i - avg l e) ^ 2).sum ≤ Real.sqrt l.length * d := by
    calc _ ≤ Real.sqrt (l.length * d ^ 2) := Real.sqrt_le_sqrt h2
      _ = Real.sqrt l.length * d := by rw [Real.sqrt_mul hn.le, Real.sqrt_sq hd0]
  have hs : 0 < Real.sqrt (l.length : ℝ) := Real.sqrt_pos.mpr hn
  rw [div_le_iff₀ hs, add_mul, div_mul_cancel₀ _ hs.ne']
  linarith

theorem std_close (l : List ι) (h : l ≠ []) (f g : ι → ℝ) (d : ℝ) (hd : ∀ i ∈ l, |f i - g i| ≤ d) : |std (l.map f) - std (l.map g)| ≤ d := by
  have h1 := std_le l h f g d hd
  have h2 := std_le l h g f d fun i hi => by rw [abs_sub_comm]; exact hd i hi
  rw [abs_le]
  constructor <;> linarith

theorem std_nonneg (l : List ℝ) : 0 ≤ std l := Real.sqrt_nonneg _

theorem std_sq (l : List ℝ) (h : l ≠ []) : std l ^ 2 * l.length = (l.map fun v => (v - l.sum / l.length) ^ 2).sum := by
  have hn : (0 : ℝ) < l.length := Nat.cast_pos.mpr (List.length_pos_iff.mpr h)
  unfold std
  rw [Real.sq_sqrt (div_nonneg (sum_map_nonneg _ _ fun i _ => sq_nonneg _) hn.le)]
  exact div_mul_cancel₀ _ hn.ne'

/-- Chebyshev: values more than `k` standard deviations away from the mean. -/
theorem chebyshev (l : List ℝ) (h : l ≠ []) (k : ℝ) (hs : 0 < std l) (hk : 0 < k) :
    (l.countP fun v => decide (k * std l < |v - l.sum / l.length|) : ℝ) * k ^ 2 ≤ l.length := by
  set m := l.sum / l.length with hm
  have e := std_sq l h
  have key : ∀ q : List ℝ, (q.countP fun v => decide (k * std l < |v - m|) : ℝ) * (k * std l) ^ 2 ≤ (q.map fun v => (v - m) ^ 2).sum := by
    intro q
    induction q with
    | nil => simp
    | cons v q ih =>
      rw [List.countP_cons, List.map_cons, List.sum_cons]
      by_cases hv : k * std l < |v - m|
      · have : (k * std l) ^ 2 ≤ (v - m) ^ 2 := by
          rw [← sq_abs (v - m)]
          exact pow_le_pow_left₀ (by positivity) hv.le 2
        simp only [hv, decide_true, if_true]
        push_cast
        linarith
      · simp only [hv, decide_false, Bool.false_eq_true, if_false]
        have := sq_nonneg (v - m)
        push_cast
        linarith
  have := key l
  rw [← e, mul_pow] at this
  have hs2 : 0 < std l ^ 2 := by positivity
  have : (l.countP fun v => decide (k * std l < |v - m|) : ℝ) * k ^ 2 * std l ^ 2 ≤ l.length * std l ^ 2 := by linarith
  exact le_of_mul_le_mul_right this hs2

/-- Standard deviation zero: all values are the mean. -/
theorem std_zero (l : List ℝ) (h : l ≠ []) (hs : std l = 0) : ∀ v ∈ l, v = l.sum / l.length := by
  have e := std_sq l h
  rw [hs] at e
  intro v hv
  have h0 : (l.map fun v => (v - l.sum / l.length) ^ 2).sum = 0 := by rw [← e]; ring
  have := List.all_zero_of_le_zero_le_of_sum_eq_zero (l := l.map fun v => (v - l.sum / l.length) ^ 2) (by
    intro x hx
    obtain ⟨w, -, rfl⟩ := List.mem_map.mp hx
    positivity) h0 (List.mem_map_of_mem hv)
  have := pow_eq_zero_iff (two_ne_zero) |>.mp this
  linarith

end BTA.HistStat
