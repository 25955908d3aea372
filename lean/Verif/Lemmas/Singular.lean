import Verif.Lemmas.Correlate
import Verif.Spec.PrealignChain
import Mathlib.Analysis.Matrix.Spectrum
import Mathlib.LinearAlgebra.Eigenspace.Matrix
/-
Every array has a term of the largest singular value. An array with at most one entry in every row and in every column.
-/
namespace BTA.Corr
open BTA.Corr.Spec
open BTA.Prealign.Spec (OneEach)

/-- The array as a matrix. -/
noncomputable def matrixOf (n m : Nat) (h : Hist2) : Matrix (Fin n) (Fin m) ℝ := fun i j => (h i j : ℝ)

/-- A vector as a function on the numbers. -/
noncomputable def extend {n : Nat} (w : Fin n → ℝ) (i : Nat) : ℝ := if h : i < n then w ⟨i, h⟩ else 0

theorem extend_fin {n : Nat} (w : Fin n → ℝ) (i : Fin n) : extend w i = w i := by simp [extend]

theorem triple_iff {n m : Nat} {h : Hist2} {u : Nat → ℝ} {d : ℝ} {v : Nat → ℝ} (ht : SingularTriple n m h u d v) :
    (matrixOf n m h).mulVec (fun j => v j) = d • (fun i : Fin n => u i) ∧ (matrixOf n m h).transpose.mulVec (fun i => u i) = d • (fun j : Fin m => v j) := by
  constructor
  · ext i
    have := ht.right i i.2
    rw [Finset.sum_range] at this
    simpa [Matrix.mulVec, dotProduct, matrixOf] using this
  · ext j
    have := ht.left j j.2
    rw [Finset.sum_range] at this
    simpa [Matrix.mulVec, dotProduct, matrixOf, Matrix.transpose] using this

theorem exists_leading (n m : Nat) (hn : 0 < n) (hm : 0 < m) (h : Hist2) : ∃ f, IsLeading n m h f := by
  have : Nonempty (Fin m) := ⟨⟨0, hm⟩⟩
  set A := matrixOf n m h with hA
  have hB : (A.transpose * A).IsHermitian := Matrix.isHermitian_conjTranspose_mul_self A
  obtain ⟨k, hk⟩ := Finite.exists_max hB.eigenvalues
  set v : Fin m → ℝ := ⇑(hB.eigenvectorBasis k) with hv
  have hvv : A.transpose.mulVec (A.mulVec v) = hB.eigenvalues k • v := by
    rw [Matrix.mulVec_mulVec]
    exact hB.mulVec_eigenvectorBasis k
  have hunit : ∑ j, v j * v j = 1 := by
    have h1 := hB.eigenvectorBasis.orthonormal.1 k
    rw [EuclideanSpace.norm_eq, Real.sqrt_eq_one] at h1
    rw [← h1]
    apply Finset.sum_congr rfl
    intro j _
    rw [Real.norm_eq_abs, sq_abs, pow_two]
  have hAv : ∑ i, A.mulVec v i * A.mulVec v i = hB.eigenvalues k := by
    have h1 : dotProduct (A.mulVec v) (A.mulVec v) = dotProduct v (A.transpose.mulVec (A.mulVec v)) := by
      rw [Matrix.dotProduct_mulVec v, Matrix.vecMul_transpose]
    have h2 : dotProduct v (hB.eigenvalues k • v) = hB.eigenvalues k := by
      rw [dotProduct_smul]
      show hB.eigenvalues k • ∑ j, v j * v j = _
      rw [hunit]
      simp
    rw [hvv, h2] at h1
    exact h1
  have hpos : 0 ≤ hB.eigenvalues k := by
    rw [← hAv]
    exact Finset.sum_nonneg fun i _ => mul_self_nonneg _
  have hmax : ∀ u' d' v', SingularTriple n m h u' d' v' → d' ≤ √(hB.eigenvalues k) := by
    intro u' d' v' ht
    obtain ⟨t1, t2⟩ := triple_iff ht
    have t3 : (A.transpose * A).mulVec (fun j => v' j) = (d' * d') • (fun j : Fin m => v' j) := by
      rw [← Matrix.mulVec_mulVec, t1, Matrix.mulVec_smul, t2, smul_smul]
    have hne : (fun j : Fin m => v' j) ≠ 0 := by
      intro h0
      have := ht.unit'
      rw [Finset.sum_range] at this
      have h1 : ∀ j : Fin m, v' j = 0 := fun j => congrFun h0 j
      simp [h1] at this
    have hspec : d' * d' ∈ spectrum ℝ (A.transpose * A) := by
      rw [← Matrix.spectrum_toLin']
      refine Module.End.HasEigenvalue.mem_spectrum (Module.End.hasEigenvalue_of_hasEigenvector (x := fun j : Fin m => v' j) ⟨?_, hne⟩)
      rw [Module.End.mem_eigenspace_iff, Matrix.toLin'_apply]
      exact t3
    rw [hB.spectrum_real_eq_range_eigenvalues] at hspec
    obtain ⟨k', hk'⟩ := hspec
    apply Real.le_sqrt_of_sq_le
    rw [pow_two, ← hk']
    exact hk k'
  by_cases hd : hB.eigenvalues k = 0
  · -- the array is zero
    have hall : A.transpose * A = 0 := by
      apply hB.eigenvalues_eq_zero_iff.mp
      ext j
      refine le_antisymm (by simpa [hd] using hk j) ?_
      have e1 : dotProduct (⇑(hB.eigenvectorBasis j)) ((A.transpose * A).mulVec (⇑(hB.eigenvectorBasis j))) = hB.eigenvalues j := by
        have := hB.eigenvalues_eq j
        simpa using this.symm
      have e2 : dotProduct (⇑(hB.eigenvectorBasis j)) ((A.transpose * A).mulVec (⇑(hB.eigenvectorBasis j))) =
          dotProduct (A.mulVec (⇑(hB.eigenvectorBasis j))) (A.mulVec (⇑(hB.eigenvectorBasis j))) := by
        rw [← Matrix.mulVec_mulVec, Matrix.dotProduct_mulVec, Matrix.vecMul_transpose]
      rw [e2] at e1
      show 0 ≤ hB.eigenvalues j
      rw [← e1]
      exact Finset.sum_nonneg fun i _ => mul_self_nonneg _
    have hA0 : A = 0 := by
      ext i j
      have e := congrFun (congrFun hall j) j
      rw [Matrix.mul_apply] at e
      exact mul_self_eq_zero.mp ((Finset.sum_eq_zero_iff_of_nonneg fun i _ => mul_self_nonneg (A i j)).mp e i (Finset.mem_univ _))
    have h0 : ∀ i < n, ∀ j < m, (h i j : ℝ) = 0 := by
      intro i hi j hj
      have := congrFun (congrFun hA0 ⟨i, hi⟩) ⟨j, hj⟩
      simpa [hA, matrixOf] using this
    refine ⟨fun _ _ => 0, fun i => if i = 0 then 1 else 0, 0, fun j => if j = 0 then 1 else 0, ⟨?_, ?_, ?_, ?_, le_rfl⟩, ?_, ?_⟩
    · intro i hi
      rw [zero_mul]
      exact Finset.sum_eq_zero fun j hj => by rw [h0 i hi j (Finset.mem_range.mp hj), zero_mul]
    · intro j hj
      rw [zero_mul]
      exact Finset.sum_eq_zero fun i hi => by rw [h0 i (Finset.mem_range.mp hi) j hj, zero_mul]
    · rw [Finset.sum_eq_single_of_mem 0 (Finset.mem_range.mpr hn)]
      · simp
      · intro i _ hi; simp [hi]
    · rw [Finset.sum_eq_single_of_mem 0 (Finset.mem_range.mpr hm)]
      · simp
      · intro i _ hi; simp [hi]
    · intro u' d' v' ht
      have := hmax u' d' v' ht
      rw [hd, Real.sqrt_zero] at this
      exact this
    · intro i _ j _
      simp
  · have hlam : 0 < hB.eigenvalues k := lt_of_le_of_ne hpos (Ne.symm hd)
    set s := √(hB.eigenvalues k) with hs
    have hs0 : 0 < s := Real.sqrt_pos.mpr hlam
    have hss : s * s = hB.eigenvalues k := Real.mul_self_sqrt hpos
    refine ⟨fun i j => extend (fun i => A.mulVec v i / s) i * s * extend v j, extend fun i => A.mulVec v i / s, s, extend v, ⟨?_, ?_, ?_, ?_, hs0.le⟩, hmax,
      fun _ _ _ _ => rfl⟩
    · intro i hi
      rw [Finset.sum_range]
      have e1 : ∑ j : Fin m, (h i j : ℝ) * extend v j = A.mulVec v ⟨i, hi⟩ := by
        simp only [extend_fin]
        rfl
      rw [e1]
      simp only [extend, hi, dif_pos]
      field_simp
    · intro j hj
      rw [Finset.sum_range]
      have e1 : ∑ i : Fin n, (h i j : ℝ) * extend (fun i => A.mulVec v i / s) i = A.transpose.mulVec (A.mulVec v) ⟨j, hj⟩ / s := by
        simp only [extend_fin]
        have e2 : A.transpose.mulVec (A.mulVec v) ⟨j, hj⟩ = ∑ i : Fin n, (h i j : ℝ) * A.mulVec v i := rfl
        rw [e2, Finset.sum_div]
        apply Finset.sum_congr rfl
        intro i _
        rw [mul_div_assoc]
      rw [e1, hvv]
      simp only [extend, hj, dif_pos, Pi.smul_apply, smul_eq_mul]
      rw [← hss]
      field_simp
    · rw [Finset.sum_range]
      simp only [extend_fin]
      have e1 : ∑ i : Fin n, A.mulVec v i / s * (A.mulVec v i / s) = (∑ i, A.mulVec v i * A.mulVec v i) / (s * s) := by
        rw [Finset.sum_div]
        apply Finset.sum_congr rfl
        intro i _
        field_simp
      rw [e1, hAv, hss, div_self hd]
    · rw [Finset.sum_range]
      simp only [extend_fin]
      exact hunit

theorem oneEach_triple {n m : Nat} {h : Hist2} (ho : OneEach n m h) {i j : Nat} (hi : i < n) (hj : j < m) (hne : h i j ≠ 0) :
    SingularTriple n m h (fun a => if a = i then 1 else 0) (h i j) (fun b => if b = j then 1 else 0) := by
  refine ⟨?_, ?_, ?_, ?_, by positivity⟩
  · intro a ha
    rw [Finset.sum_eq_single_of_mem j (Finset.mem_range.mpr hj)]
    · by_cases e : a = i
      · simp [e]
      · have : h a j = 0 := by
          by_contra hc
          exact e (ho.column a ha i hi j hj hc hne)
        simp [this, e]
    · intro b _ hb
      simp [hb]
  · intro b hb
    rw [Finset.sum_eq_single_of_mem i (Finset.mem_range.mpr hi)]
    · by_cases e : b = j
      · simp [e]
      · have : h i b = 0 := by
          by_contra hc
          exact e (ho.row i hi b hb j hj hc hne)
        simp [this, e]
    · intro a _ ha
      simp [ha]
  · rw [Finset.sum_eq_single_of_mem i (Finset.mem_range.mpr hi)]
    · simp
    · intro a _ ha; simp [ha]
  · rw [Finset.sum_eq_single_of_mem j (Finset.mem_range.mpr hj)]
    · simp
    · intro a _ ha; simp [ha]

/-- The components of a singular vector at an entry. -/
theorem oneEach_components {n m : Nat} {h : Hist2} (ho : OneEach n m h) {u : Nat → ℝ} {d : ℝ} {v : Nat → ℝ} (ht : SingularTriple n m h u d v)
    {i j : Nat} (hi : i < n) (hj : j < m) (hne : h i j ≠ 0) : (h i j : ℝ) * v j = d * u i ∧ (h i j : ℝ) * u i = d * v j := by
  constructor
  · rw [← ht.right i hi, Finset.sum_eq_single_of_mem j (Finset.mem_range.mpr hj)]
    intro b hb hbj
    have : h i b = 0 := by
      by_contra hc
      exact hbj (ho.row i hi b (Finset.mem_range.mp hb) j hj hc hne)
    simp [this]
  · rw [← ht.left j hj, Finset.sum_eq_single_of_mem i (Finset.mem_range.mpr hi)]
    intro a ha hai
    have : h a j = 0 := by
      by_contra hc
      exact hai (ho.column a (Finset.mem_range.mp ha) i hi j hj hc hne)
    simp [this]

theorem toInt_le_abs (x : ℝ) : ((toInt x : Int) : ℝ) ≤ |x| ∧ -|x| ≤ ((toInt x : Int) : ℝ) := by
  have := (toInt_spec x).1
  exact ⟨(le_abs_self _).trans this, neg_le.mp ((neg_le_abs _).trans this)⟩

/-- The entry of a row is still the largest value after the subtraction of the background, except for two rows. -/
theorem oneEach_peak {n m : Nat} {h : Hist2} (ho : OneEach n m h) {f : Nat → Nat → ℝ} (hf : IsLeading n m h f) :
    Set.ncard {i : Nat | i < n ∧ ∃ j < m, h i j ≠ 0 ∧ ∃ j' < m, j' ≠ j ∧ (h i j : Int) - toInt (f i j) ≤ (h i j' : Int) - toInt (f i j')} ≤ 2 := by
  obtain ⟨u, d, v, ht, hmax, hf⟩ := hf
  have hsub : {i : Nat | i < n ∧ ∃ j < m, h i j ≠ 0 ∧ ∃ j' < m, j' ≠ j ∧ (h i j : Int) - toInt (f i j) ≤ (h i j' : Int) - toInt (f i j')} ⊆
      {i : Nat | i < n ∧ 1 / 2 ≤ u i * u i} := by
    rintro i ⟨hi, j, hj, hne, j', hj', hjj, hle⟩
    refine ⟨hi, ?_⟩
    by_contra hlt
    rw [not_le] at hlt
    have h0 : h i j' = 0 := by
      by_contra hc
      exact hjj (ho.row i hi j' hj' j hj hc hne)
    obtain ⟨c1, c2⟩ := oneEach_components ho ht hi hj hne
    have hdm := hmax _ _ _ (oneEach_triple ho hi hj hne)
    have hx : (0 : ℝ) < h i j := by exact_mod_cast Nat.pos_of_ne_zero hne
    have hd : 0 < d := lt_of_lt_of_le hx hdm
    have key : ((toInt (f i j) : Int) : ℝ) - toInt (f i j') < h i j := by
      by_cases hu : u i = 0
      · rw [hf i hi j hj, hf i hi j' hj', hu]
        simp only [zero_mul]
        have : toInt 0 = 0 := by simp [toInt]
        rw [this]
        simpa using hx
      · have e1 : ((h i j : ℝ) - d) * ((h i j : ℝ) + d) * u i = 0 := by linear_combination (h i j : ℝ) * c2 + d * c1
        have e2 : (h i j : ℝ) = d := by
          rcases mul_eq_zero.mp e1 with e | e
          · rcases mul_eq_zero.mp e with e | e
            · linarith
            · linarith
          · exact absurd e hu
        have e3 : v j = u i := by
          rw [e2] at c1
          exact mul_left_cancel₀ hd.ne' c1
        have hv : v j * v j + v j' * v j' ≤ 1 := by
          rw [← ht.unit', ← Finset.sum_pair (f := fun j => v j * v j) (Ne.symm hjj)]
          apply Finset.sum_le_sum_of_subset_of_nonneg
          · intro a ha
            rcases Finset.mem_insert.mp ha with rfl | ha
            · exact Finset.mem_range.mpr hj
            · rw [Finset.mem_singleton.mp ha]
              exact Finset.mem_range.mpr hj'
          · intro a _ _
            exact mul_self_nonneg _
        rw [e3] at hv
        rw [hf i hi j hj, hf i hi j' hj', e3, e2]
        have b1 := (toInt_le_abs (u i * d * u i)).1
        have b2 := (toInt_le_abs (u i * d * v j')).2
        have a1 : |u i * d * u i| = d * (u i * u i) := by
          rw [abs_of_nonneg]
          · ring
          · have := mul_self_nonneg (u i)
            nlinarith
        have a2 : |u i * d * v j'| = d * |u i * v j'| := by
          rw [← abs_of_pos hd, ← abs_mul, abs_of_pos hd]
          congr 1
          ring
        have a3 : |u i * v j'| ≤ 1 / 2 := by
          rw [abs_le]
          constructor <;> nlinarith [sq_nonneg (u i + v j'), sq_nonneg (u i - v j')]
        rw [a1] at b1
        rw [a2] at b2
        have : d * (u i * u i) + d * |u i * v j'| < d := by nlinarith
        linarith
    rw [h0] at hle
    have : ((h i j : Int) : ℝ) - (toInt (f i j) : Int) ≤ -((toInt (f i j') : Int) : ℝ) := by
      have hle' : ((((h i j : Int) - toInt (f i j) : Int)) : ℝ) ≤ ((((0 : Nat) : Int) - toInt (f i j') : Int) : ℝ) := by exact_mod_cast hle
      push_cast at hle'
      simpa using hle'
    push_cast at this
    linarith
  refine le_trans (Set.ncard_le_ncard hsub ((Set.finite_Iio n).subset fun i h => h.1)) ?_
  by_contra hc
  rw [not_le] at hc
  obtain ⟨x, y, z, ⟨hx, ux⟩, ⟨hy, uy⟩, ⟨hz, uz⟩, hxy, hxz, hyz⟩ := (Set.two_lt_ncard_iff ((Set.finite_Iio n).subset fun i h => h.1)).mp hc
  have hle : ∑ i ∈ ({x, y, z} : Finset Nat), u i * u i ≤ 1 := by
    rw [← ht.unit]
    apply Finset.sum_le_sum_of_subset_of_nonneg
    · intro a ha
      simp only [Finset.mem_insert, Finset.mem_singleton] at ha
      rw [Finset.mem_range]
      rcases ha with rfl | rfl | rfl <;> assumption
    · intro a _ _
      exact mul_self_nonneg _
  rw [Finset.sum_insert (by simp [hxy, hxz]), Finset.sum_pair hyz] at hle
  linarith

/-- The term of the largest singular value, if one entry is larger than all others. -/
theorem oneEach_leading {n m : Nat} {h : Hist2} (ho : OneEach n m h) {f : Nat → Nat → ℝ} (hf : IsLeading n m h f) {i j : Nat} (hi : i < n) (hj : j < m)
    (hne : h i j ≠ 0) (hmax : ∀ a < n, ∀ b < m, a ≠ i → h a b < h i j) :
    ∀ a < n, ∀ b < m, f a b = if a = i ∧ b = j then (h i j : ℝ) else 0 := by
  obtain ⟨u, d, v, ht, hd, hf⟩ := hf
  have hx : (0 : ℝ) < h i j := by exact_mod_cast Nat.pos_of_ne_zero hne
  have hdm := hd _ _ _ (oneEach_triple ho hi hj hne)
  have hd0 : 0 < d := lt_of_lt_of_le hx hdm
  -- only one row
  have hu : ∀ a < n, a ≠ i → u a = 0 := by
    intro a ha hai
    by_contra hua
    by_cases hrow : ∃ b < m, h a b ≠ 0
    · obtain ⟨b, hb, hab⟩ := hrow
      obtain ⟨c1, c2⟩ := oneEach_components ho ht ha hb hab
      have e1 : ((h a b : ℝ) - d) * ((h a b : ℝ) + d) * u a = 0 := by linear_combination (h a b : ℝ) * c2 + d * c1
      have hp : (0 : ℝ) ≤ h a b := Nat.cast_nonneg _
      have hlt : (h a b : ℝ) < h i j := by exact_mod_cast hmax a ha b hb hai
      rcases mul_eq_zero.mp e1 with e | e
      · rcases mul_eq_zero.mp e with e | e <;> linarith
      · exact hua e
    · push Not at hrow
      have := ht.right a ha
      rw [Finset.sum_eq_zero (fun b hb => by rw [hrow b (Finset.mem_range.mp hb)]; simp)] at this
      rcases mul_eq_zero.mp this.symm with e | e
      · exact hd0.ne' e
      · exact hua e
  have hui : u i * u i = 1 := by
    have := ht.unit
    rw [Finset.sum_eq_single_of_mem i (Finset.mem_range.mpr hi)] at this
    · exact this
    · intro a ha hai
      rw [hu a (Finset.mem_range.mp ha) hai, zero_mul]
  have hui0 : u i ≠ 0 := by
    intro e
    rw [e] at hui
    norm_num at hui
  obtain ⟨c1, c2⟩ := oneEach_components ho ht hi hj hne
  have e2 : (h i j : ℝ) = d := by
    have e1 : ((h i j : ℝ) - d) * ((h i j : ℝ) + d) * u i = 0 := by linear_combination (h i j : ℝ) * c2 + d * c1
    rcases mul_eq_zero.mp e1 with e | e
    · rcases mul_eq_zero.mp e with e | e <;> linarith
    · exact absurd e hui0
  have hv : ∀ b < m, b ≠ j → v b = 0 := by
    intro b hb hbj
    have := ht.left b hb
    rw [Finset.sum_eq_zero] at this
    · rcases mul_eq_zero.mp this.symm with e | e
      · exact absurd e hd0.ne'
      · exact e
    · intro a ha
      by_cases hai : a = i
      · have : h a b = 0 := by
          by_contra hc
          rw [hai] at hc
          exact hbj (ho.row i hi b hb j hj hc hne)
        simp [this]
      · rw [hu a (Finset.mem_range.mp ha) hai, mul_zero]
  have hvj : v j = u i := by
    rw [e2] at c1
    exact mul_left_cancel₀ hd0.ne' c1
  intro a ha b hb
  rw [hf a ha b hb]
  by_cases h1 : a = i
  · subst h1
    by_cases h2 : b = j
    · subst h2
      rw [if_pos ⟨rfl, rfl⟩, hvj, e2]
      linear_combination d * hui
    · rw [if_neg fun h => h2 h.2, hv b hb h2, mul_zero]
  · rw [if_neg fun h => h1 h.1, hu a ha h1]
    ring

end BTA.Corr
