import Verif.Lemmas.Singular
import Verif.Props.PrealignChain
/-
C212: the pre-alignment with the histograms of which the background has been reduced (the default).
-/
namespace BTA.Props
open BTA.Prealign BTA.Prealign.Spec BTA.Dut BTA.Geo BTA.Corr BTA.Corr.Spec

/-- C212: in a histogram without uncorrelated coincidences, the bin with the coincidences is still the only largest one of its row after the reduction of
the background, for all rows but two at most. -/
theorem C212_peaks (n m : Nat) (h : Hist2) (ho : OneEach n m h) (lead : Leading) (hl : IsLeading n m h (lead n m h)) :
    Set.ncard {i : Nat | i < n ∧ ∃ j < m, h i j ≠ 0 ∧ ∃ j' < m, j' ≠ j ∧ reduced lead n m h i j ≤ reduced lead n m h i j'} ≤ 2 := by
  refine le_trans (Set.ncard_le_ncard ?_ ((Set.finite_Iio n).subset fun i h => h.1)) (oneEach_peak ho hl)
  rintro i ⟨hi, j, hj, hne, j', hj', hjj, hle⟩
  refine ⟨hi, j, hj, hne, j', hj', hjj, ?_⟩
  unfold reduced withoutBackground at hle
  omega

/-- C212: the two rows cannot be avoided. If one row of a histogram without uncorrelated coincidences has more entries than each of the others, then this
row, which has the strongest correlation, is emptied, and nothing else is changed: there is no background that could be reduced. -/
theorem C212_erased (n m : Nat) (h : Hist2) (ho : OneEach n m h) (lead : Leading) (hl : IsLeading n m h (lead n m h)) (i j : Nat) (hi : i < n) (hj : j < m)
    (hne : h i j ≠ 0) (hmax : ∀ a < n, ∀ b < m, a ≠ i → h a b < h i j) :
    ∀ a < n, ∀ b < m, reduced lead n m h a b = if a = i then 0 else (h a b : Int) := by
  have hlead := oneEach_leading ho hl hi hj hne hmax
  have hw : ∀ a < n, ∀ b < m, withoutBackground lead n m h a b = if a = i then 0 else (h a b : Int) := by
    intro a ha b hb
    unfold withoutBackground
    rw [hlead a ha b hb]
    by_cases h1 : a = i
    · subst h1
      by_cases h2 : b = j
      · subst h2
        simp [toInt]
      · have h0 : h a b = 0 := by
          by_contra hc
          exact h2 (ho.row a ha b hb j hj hc hne)
        simp [toInt, h0, h2]
    · simp [toInt, h1]
  have hmin : minimum n m (withoutBackground lead n m h) = 0 := by
    obtain ⟨hall, a, ha, b, hb, e⟩ := minimum_spec n m (by omega) (by omega) (withoutBackground lead n m h)
    apply le_antisymm
    · have := hall i hi j hj
      rw [hw i hi j hj, if_pos rfl] at this
      exact this
    · rw [e, hw a ha b hb]
      split <;> omega
  intro a ha b hb
  unfold reduced
  rw [hmin, hw a ha b hb, sub_zero]

/-- The columns or rows that are shown by the histogram with reduced background. -/
theorem clean_shown {S T : Table} {f : Row → ℝ} {n m : Nat} {s K : ℝ} (hs : s = 1 ∨ s = -1) (hc : CleanPairs S T f n m s K) (lead : Leading)
    (hl : ∀ n m h, 0 < n → 0 < m → IsLeading n m h (lead n m h)) (hn : 0 < n) (hm : 0 < m) (h : Hist2)
    (hh : ∀ i j, h i j = pairsInPixels S T f (i + 1) (j + 1)) :
    4 * Set.ncard {c : Nat | 1 ≤ c ∧ c ≤ m ∧ ¬ ∃ c', 1 ≤ c' ∧ c' ≤ n ∧ (c' : ℝ) = s * c + K ∧
      ∀ c'', 1 ≤ c'' → c'' ≤ n → c'' ≠ c' → ((reduced lead m n h (c - 1) (c'' - 1) : Int) : ℝ) < ((reduced lead m n h (c - 1) (c' - 1) : Int) : ℝ)} + 2 ≤ m := by
  have hpart : ∀ i < m, ∀ j < n, h i j ≠ 0 → ((j : ℝ) + 1) = s * (i + 1) + K := by
    intro i hi j hj hne
    rw [hh] at hne
    have := hc.partner (i + 1) (j + 1) (by omega) (by omega) (by omega) (by omega) (Nat.pos_of_ne_zero hne)
    push_cast at this
    exact this
  have ho : OneEach m n h := by
    constructor
    · intro i hi j hj j' hj' h1 h2
      have e1 := hpart i hi j hj h1
      have e2 := hpart i hi j' hj' h2
      have : (j : ℝ) = j' := by linarith
      exact_mod_cast this
    · intro i hi i' hi' j hj h1 h2
      have e1 := hpart i hi j hj h1
      have e2 := hpart i' hi' j hj h2
      have : (i : ℝ) = i' := by rcases hs with rfl | rfl <;> linarith
      exact_mod_cast this
  have hpeaks := C212_peaks m n h ho lead (hl m n h hm hn)
  have hsub : {c : Nat | 1 ≤ c ∧ c ≤ m ∧ ¬ ∃ c', 1 ≤ c' ∧ c' ≤ n ∧ (c' : ℝ) = s * c + K ∧
      ∀ c'', 1 ≤ c'' → c'' ≤ n → c'' ≠ c' → ((reduced lead m n h (c - 1) (c'' - 1) : Int) : ℝ) < ((reduced lead m n h (c - 1) (c' - 1) : Int) : ℝ)} ⊆
      {c : Nat | 1 ≤ c ∧ c ≤ m ∧ ∀ c', 1 ≤ c' → c' ≤ n → pairsInPixels S T f c c' = 0} ∪
      (fun i => i + 1) '' {i : Nat | i < m ∧ ∃ j < n, h i j ≠ 0 ∧ ∃ j' < n, j' ≠ j ∧ reduced lead m n h i j ≤ reduced lead m n h i j'} := by
    rintro c ⟨h1, h2, h3⟩
    by_cases h0 : ∀ c', 1 ≤ c' → c' ≤ n → pairsInPixels S T f c c' = 0
    · exact .inl ⟨h1, h2, h0⟩
    · right
      push Not at h0
      obtain ⟨c', k1, k2, k3⟩ := h0
      refine ⟨c - 1, ⟨by omega, c' - 1, by omega, ?_, ?_⟩, by simp only; omega⟩
      · rw [hh, Nat.sub_add_cancel h1, Nat.sub_add_cancel k1]
        exact k3
      · by_contra hno
        push Not at hno
        apply h3
        refine ⟨c', k1, k2, hc.partner c c' h1 h2 k1 k2 (Nat.pos_of_ne_zero k3), fun c'' q1 q2 q3 => ?_⟩
        exact_mod_cast hno (c'' - 1) (by omega) (by omega)
  have hfin1 : Set.Finite {c : Nat | 1 ≤ c ∧ c ≤ m ∧ ∀ c', 1 ≤ c' → c' ≤ n → pairsInPixels S T f c c' = 0} :=
    (Set.finite_Iic m).subset fun c h => h.2.1
  have hfin2 : Set.Finite {i : Nat | i < m ∧ ∃ j < n, h i j ≠ 0 ∧ ∃ j' < n, j' ≠ j ∧ reduced lead m n h i j ≤ reduced lead m n h i j'} :=
    (Set.finite_Iio m).subset fun c h => h.1
  have h1 := Set.ncard_le_ncard hsub (hfin1.union (hfin2.image _))
  have h2 := Set.ncard_union_le {c : Nat | 1 ≤ c ∧ c ≤ m ∧ ∀ c', 1 ≤ c' → c' ≤ n → pairsInPixels S T f c c' = 0}
    ((fun i => i + 1) '' {i : Nat | i < m ∧ ∃ j < n, h i j ≠ 0 ∧ ∃ j' < n, j' ≠ j ∧ reduced lead m n h i j ≤ reduced lead m n h i j'})
  have h3 := Set.ncard_image_le (f := fun i : Nat => i + 1) hfin2
  have h4 := hc.many
  omega

/-- C212: with the default settings (reduction of the background), for sensors with pixels of the same size, not rotated, with the first one at the
origin. If each column and row of each DUT has coincidences with the column `sx * column + kx` and the row `sy * row + ky` of the first DUT only, and
only few have none, then `correlate` and `prealign` succeed with bins of the size of a pixel, and every DUT is at its true position within three
quarters of a pixel, wherever it was thought to be. `lead` is the term of the largest singular value. -/
theorem C212_pixels (env : Env) (hsort : Sorts env) (hdens : ∀ xs x, 0 < env.density xs x) (tel : List PDut) (files : List Table) (res : ℝ × ℝ) (cs : Nat)
    (lead : Leading) (hl : ∀ n m h, 0 < n → 0 < m → IsLeading n m h (lead n m h)) (hr : 0 < res.1 ∧ 0 < res.2)
    (htel : ∀ d ∈ tel, Upright d ∧ d.pixels.columnSize = res.1 ∧ d.pixels.rowSize = res.2 ∧ 3 ≤ d.pixels.nColumns ∧ 3 ≤ d.pixels.nRows)
    (hlen : files.length = tel.length)
    (hfiles : ∀ t ∈ files, t.positions = false ∧ Spec.SortedBy Row.ev t.rows ∧ ∀ v, Spec.multiplicity Row.ev t.rows v < cs)
    (hpix : ∀ (i : Nat) (d : PDut) (t : Table), tel[i]? = some d → files[i]? = some t → ∀ r ∈ t.rows, (1 ≤ r.coord.1 ∧ r.coord.1 ≤ d.pixels.nColumns) ∧ 1 ≤ r.coord.2 ∧
      r.coord.2 ≤ d.pixels.nRows)
    (p : PDut) (hp : tel[0]? = some p) (horigin : p.align.x = 0 ∧ p.align.y = 0) (S : Table) (hS : files[0]? = some S) (sx sy kx ky : Nat → ℝ)
    (hsign : ∀ i, (sx i = 1 ∨ sx i = -1) ∧ (sy i = 1 ∨ sy i = -1))
    (hclean : ∀ (i : Nat) (d : PDut) (T : Table), i ≠ 0 → tel[i]? = some d → files[i]? = some T →
      CleanPairs S T (fun r => r.coord.1) p.pixels.nColumns d.pixels.nColumns (sx i) (kx i) ∧
      CleanPairs S T (fun r => r.coord.2) p.pixels.nRows d.pixels.nRows (sy i) (ky i)) :
    ∃ out tel', correlate (tel.map planeOf) files res none (some [0]) cs lead = (true, .ok out) ∧
      prealign env (fileOf res true out 0) tel false none 0 = .ok tel' ∧
      ∀ (i : Nat) (d : PDut), i ≠ 0 → tel[i]? = some d → ∃ d', tel'[i]? = some d' ∧
        |d'.align.x - res.1 * (sx i * (d.pixels.nColumns + 1) / 2 + kx i - (p.pixels.nColumns + 1) / 2)| ≤ 3 / 4 * res.1 ∧
        |d'.align.y - res.2 * (sy i * (d.pixels.nRows + 1) / 2 + ky i - (p.pixels.nRows + 1) / 2)| ≤ 3 / 4 * res.2 := by
  refine chain_pixels env hsort hdens tel files res cs lead true hr htel hlen hfiles hpix p hp horigin S hS sx sy kx ky hsign ?_
  intro i d T e hi hd hT he
  obtain ⟨cx, cy⟩ := hclean i d T hi hd hT
  obtain ⟨-, -, -, pn1, pn2⟩ := htel p (List.mem_of_getElem? hp)
  obtain ⟨-, -, -, dn1, dn2⟩ := htel d (List.mem_of_getElem? hd)
  constructor
  · simp only [nodeOf, if_true, he.rx, he.dx, he.xr]
    apply axis_correlated
    exact clean_shown (hsign i).1 cx lead hl (by omega) (by omega) e.x he.x
  · simp only [nodeOf, if_true, he.ry, he.dy, he.yr, Bool.false_eq_true, if_false]
    apply axis_correlated
    exact clean_shown (hsign i).2 cy lead hl (by omega) (by omega) e.y he.y

/-! ### Example: a reference with 12 x 12 pixels and a DUT with 10 x 10 pixels that is thought to be at x = 700. Ten events with one particle each. -/

noncomputable def cleanTel : List PDut := [⟨⟨50, 50, 12, 12⟩, ⟨0, 0, 0, 0, 0, 0⟩, none, none⟩, ⟨⟨50, 50, 10, 10⟩, ⟨700, 0, 1000, 0, 0, 0⟩, none, none⟩]

noncomputable def cleanTable : Table := ⟨false, (List.range 10).map fun i : Nat => ⟨(i : Int), ((i : ℝ) + 1, (i : ℝ) + 1)⟩⟩

theorem clean_pairs (f : Row → ℝ) (hf : ∀ (e : Int) (a : ℝ), f ⟨e, (a, a)⟩ = a) : CleanPairs cleanTable cleanTable f 12 10 1 0 := by
  have hpos : ∀ c c', 0 < pairsInPixels cleanTable cleanTable f c c' ↔ ∃ i < 10, ((c : ℝ) - 1 / 2 ≤ (i : Nat) + 1 ∧ ((i : Nat) : ℝ) + 1 < c + 1 / 2) ∧
      ((c' : ℝ) - 1 / 2 ≤ (i : Nat) + 1 ∧ ((i : Nat) : ℝ) + 1 < c' + 1 / 2) := by
    intro c c'
    unfold pairsInPixels Spec.pairCount
    rw [List.countP_pos_iff]
    constructor
    · rintro ⟨⟨r, d⟩, hm, hP⟩
      obtain ⟨r', hr, hm⟩ := List.mem_flatMap.mp hm
      obtain ⟨d', hd, e⟩ := List.mem_map.mp hm
      obtain ⟨i, hi, rfl⟩ := List.mem_map.mp hr
      obtain ⟨j, hj, rfl⟩ := List.mem_map.mp hd
      injection e with e1 e2
      subst e1 e2
      simp only [decide_eq_true_eq] at hP
      obtain ⟨h1, h2, h3, h4⟩ := hP
      obtain rfl : i = j := by exact_mod_cast h1
      rw [hf] at h2 h3 h4
      exact ⟨i, List.mem_range.mp hi, h2, h3, h4⟩
    · rintro ⟨i, hi, h1, h2⟩
      refine ⟨(⟨(i : Int), ((i : ℝ) + 1, (i : ℝ) + 1)⟩, ⟨(i : Int), ((i : ℝ) + 1, (i : ℝ) + 1)⟩), ?_, ?_⟩
      · refine List.mem_flatMap.mpr ⟨⟨(i : Int), ((i : ℝ) + 1, (i : ℝ) + 1)⟩, List.mem_map.mpr ⟨i, List.mem_range.mpr hi, rfl⟩,
          List.mem_map.mpr ⟨⟨(i : Int), ((i : ℝ) + 1, (i : ℝ) + 1)⟩, List.mem_map.mpr ⟨i, List.mem_range.mpr hi, rfl⟩, rfl⟩⟩
      · simp only [decide_eq_true_eq, hf]
        exact ⟨trivial, h1, h2.1, h2.2⟩
  have hround : ∀ c i : Nat, ((c : ℝ) - 1 / 2 ≤ i + 1 ∧ (i : ℝ) + 1 < c + 1 / 2) → c = i + 1 := by
    rintro c i ⟨h1, h2⟩
    have a1 : (c : ℝ) < ((i + 2 : Nat) : ℝ) := by push_cast; linarith
    have a2 : ((i : Nat) : ℝ) < c := by linarith
    have a1 := Nat.cast_lt.mp a1
    have a2 := Nat.cast_lt.mp a2
    omega
  constructor
  · intro c c' _ _ _ _ h
    obtain ⟨i, -, h1, h2⟩ := (hpos c c').mp h
    rw [hround c i h1, hround c' i h2]
    ring
  · have : {c : Nat | 1 ≤ c ∧ c ≤ 10 ∧ ∀ c', 1 ≤ c' → c' ≤ 12 → pairsInPixels cleanTable cleanTable f c c' = 0} = ∅ := by
      ext c
      simp only [Set.mem_setOf_eq, Set.mem_empty_iff_false, iff_false, not_and]
      intro h1 h2 h3
      have h0 := (hpos c c).mpr ⟨c - 1, by omega, by rw [Nat.cast_sub h1]; constructor <;> push_cast <;> linarith,
        by rw [Nat.cast_sub h1]; constructor <;> push_cast <;> linarith⟩
      have := h3 c h1 (by omega)
      omega
    rw [this, Set.ncard_empty]

open Classical in
/-- The term of the largest singular value of every array that is not empty. -/
noncomputable def someLead : Leading := fun n m h => if hc : ∃ f, IsLeading n m h f then hc.choose else fun _ _ => 0

theorem someLead_leading (n m : Nat) (h : Hist2) (hn : 0 < n) (hm : 0 < m) : IsLeading n m h (someLead n m h) := by
  have hc := exists_leading n m hn hm h
  unfold someLead
  rw [dif_pos hc]
  exact hc.choose_spec

/-- C212: the position of the DUT is found. -/
example : ∃ (out : List Entry) (tel' : List PDut) (d' : PDut), correlate (cleanTel.map planeOf) [cleanTable, cleanTable] (50, 50) none (some [0]) 20 someLead = (true, .ok out) ∧
    prealign exEnv (fileOf (50, 50) true out 0) cleanTel false none 0 = .ok tel' ∧ tel'[1]? = some d' ∧ |d'.align.x - -50| ≤ (75 / 2 : ℝ) ∧
    |d'.align.y - -50| ≤ (75 / 2 : ℝ) := by
  obtain ⟨out, tel', h1, h2, h3⟩ := C212_pixels exEnv exEnv_sorts (fun _ _ => one_pos) cleanTel [cleanTable, cleanTable] (50, 50) 20 someLead someLead_leading
    (by norm_num)
    (by
      intro d hd
      simp only [cleanTel, List.mem_cons, List.not_mem_nil, or_false] at hd
      rcases hd with rfl | rfl <;> simp [Upright]) rfl
    (by
      intro t ht
      have ht : t = cleanTable := by simpa using ht
      subst ht
      refine ⟨rfl, ?_, fun v => ?_⟩
      · unfold Spec.SortedBy cleanTable
        rw [List.pairwise_map]
        exact List.pairwise_lt_range.imp fun h => by simpa using h.le
      · unfold Spec.multiplicity
        exact lt_of_le_of_lt (List.length_filter_le _ _) (by simp [cleanTable]))
    (by
      intro i d t hd ht r hr
      have ht : t = cleanTable := by
        have := List.mem_of_getElem? ht
        simpa using this
      subst ht
      have hd := List.mem_of_getElem? hd
      simp only [cleanTel, List.mem_cons, List.not_mem_nil, or_false] at hd
      obtain ⟨j, hj, rfl⟩ := List.mem_map.mp hr
      have hj : (j : ℝ) + 1 ≤ 10 := by exact_mod_cast List.mem_range.mp hj
      have hj0 : (0 : ℝ) ≤ j := Nat.cast_nonneg j
      rcases hd with rfl | rfl <;> (refine ⟨⟨?_, ?_⟩, ?_, ?_⟩ <;> simp only <;> push_cast <;> linarith))
    _ rfl ⟨rfl, rfl⟩ _ rfl (fun _ => 1) (fun _ => 1) (fun _ => 0) (fun _ => 0) (fun _ => ⟨.inl rfl, .inl rfl⟩)
    (by
      intro i d T hi hd hT
      have hT' : T = cleanTable := by
        have := List.mem_of_getElem? hT
        simpa using this
      subst hT'
      have hlt : i < 2 := (List.getElem?_eq_some_iff.mp hd).1
      obtain rfl : i = 1 := by omega
      obtain rfl := Option.some.inj hd
      exact ⟨clean_pairs _ fun _ _ => rfl, clean_pairs _ fun _ _ => rfl⟩)
  obtain ⟨d', hd', hx, hy⟩ := h3 1 _ (by norm_num) rfl
  refine ⟨out, tel', d', h1, h2, hd', ?_, ?_⟩
  · norm_num at hx ⊢
    exact hx
  · norm_num at hy ⊢
    exact hy

/-- C212: three rows with one coincidence each and one row with two of them: the latter is emptied. -/
example : reduced someLead 4 4 (fun i j => if i = j then (if i = 1 then 2 else 1) else 0) 1 1 = 0 ∧
    reduced someLead 4 4 (fun i j => if i = j then (if i = 1 then 2 else 1) else 0) 2 2 = 1 := by
  have key := C212_erased 4 4 (fun i j => if i = j then (if i = 1 then 2 else 1) else 0) (by
    constructor
    · intro i _ j _ j' _ h1 h2
      have e1 : i = j := by by_contra hc; simp [hc] at h1
      have e2 : i = j' := by by_contra hc; simp [hc] at h2
      omega
    · intro i _ i' _ j _ h1 h2
      have e1 : i = j := by by_contra hc; simp [hc] at h1
      have e2 : i' = j := by by_contra hc; simp [hc] at h2
      omega) someLead (someLead_leading 4 4 _ (by norm_num) (by norm_num)) 1 1 (by norm_num) (by norm_num) (by norm_num) (by
    intro a _ b _ h
    by_cases e : a = b
    · simp [e] at h ⊢
      simp [h]
    · simp [e])
  exact ⟨by rw [key 1 (by norm_num) 1 (by norm_num)]; rfl, by rw [key 2 (by norm_num) 2 (by norm_num)]; rfl⟩

end BTA.Props
