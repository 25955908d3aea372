import Verif.Spec.Prealign
import Verif.Lemmas.Geometry
import Verif.Props.Geometry
import Verif.Props.Dut
import Mathlib.Analysis.SpecialFunctions.Trigonometric.Basic
import Mathlib.Data.List.Nodup
/-
Helper lemmas for Verif/Props/Prealign.lean.
-/
namespace BTA.Prealign
open BTA.Prealign.Spec BTA.Dut BTA.Geo

/-! ### argmin, argmax -/

theorem argminFrom_spec : ∀ (xs pre : List ℝ) (at' : Nat) (h : at' < pre.length),
    (∀ k (hk : k < pre.length), pre[at'] ≤ pre[k]) → (∀ k (hk : k < at'), pre[at'] < pre[k]'(hk.trans h)) →
    ∃ hr : argminFrom xs pre.length at' pre[at'] < (pre ++ xs).length,
      (∀ k (hk : k < (pre ++ xs).length), (pre ++ xs)[argminFrom xs pre.length at' pre[at']] ≤ (pre ++ xs)[k]) ∧
      ∀ k (hk : k < argminFrom xs pre.length at' pre[at']),
        (pre ++ xs)[argminFrom xs pre.length at' pre[at']] < (pre ++ xs)[k]'(hk.trans hr) := by
  intro xs
  induction xs with
  | nil =>
    intro pre at' h h1 h2
    simp only [argminFrom, List.append_nil]
    exact ⟨h, h1, h2⟩
  | cons x xs ih =>
    intro pre at' h h1 h2
    have e : pre ++ x :: xs = (pre ++ [x]) ++ xs := by simp
    have el : (pre ++ [x]).length = pre.length + 1 := by simp
    by_cases hx : x < pre[at']
    · have hr : argminFrom (x :: xs) pre.length at' pre[at'] = argminFrom xs (pre.length + 1) pre.length x := by
        simp only [argminFrom, if_pos hx]
      have := ih (pre ++ [x]) pre.length (by simp) (by
        intro k hk
        rw [List.getElem_append_right (le_refl _)]
        simp only [Nat.sub_self, List.getElem_cons_zero]
        rcases Nat.lt_or_ge k pre.length with hk' | hk'
        · rw [List.getElem_append_left hk']
          exact (hx.trans_le (h1 k hk')).le
        · rw [List.getElem_append_right hk']
          have : k - pre.length = 0 := by rw [el] at hk; omega
          simp [this]) (by
        intro k hk
        rw [List.getElem_append_right (le_refl _)]
        simp only [Nat.sub_self, List.getElem_cons_zero]
        rw [List.getElem_append_left hk]
        exact hx.trans_le (h1 k hk))
      rw [List.getElem_append_right (le_refl _)] at this
      simp only [Nat.sub_self, List.getElem_cons_zero, el] at this
      simp only [hr, e]
      exact this
    · have hr : argminFrom (x :: xs) pre.length at' pre[at'] = argminFrom xs (pre.length + 1) at' pre[at'] := by
        simp only [argminFrom, if_neg hx]
      have ea : (pre ++ [x])[at']'(by simp; omega) = pre[at'] := List.getElem_append_left h
      have := ih (pre ++ [x]) at' (by simp; omega) (by
        intro k hk
        rw [ea]
        rcases Nat.lt_or_ge k pre.length with hk' | hk'
        · rw [List.getElem_append_left hk']
          exact h1 k hk'
        · rw [List.getElem_append_right hk']
          have : k - pre.length = 0 := by rw [el] at hk; omega
          simp only [this, List.getElem_cons_zero]
          exact not_lt.mp hx) (by
        intro k hk
        rw [ea, List.getElem_append_left (hk.trans h)]
        exact h2 k hk)
      simp only [ea, el] at this
      simp only [hr, e]
      exact this

theorem argmin_spec (l : List ℝ) (h : l ≠ []) :
    ∃ hr : argmin l < l.length, (∀ k (hk : k < l.length), l[argmin l] ≤ l[k]) ∧
      ∀ k (hk : k < argmin l), l[argmin l] < l[k]'(hk.trans hr) := by
  cases l with
  | nil => exact absurd rfl h
  | cons x xs =>
    have := argminFrom_spec xs [x] 0 (by simp) (by
      intro k hk
      have : k = 0 := by simpa using hk
      simp [this]) (by intro k hk; omega)
    exact this

theorem argmin_eq (l : List ℝ) (r : Nat) (hr : r < l.length) (h1 : ∀ k (hk : k < l.length), l[r] ≤ l[k])
    (h2 : ∀ k (hk : k < r), l[r] < l[k]'(hk.trans hr)) : argmin l = r := by
  obtain ⟨ha, h3, h4⟩ := argmin_spec l (by intro h0; simp [h0] at hr)
  rcases lt_trichotomy (argmin l) r with h | h | h
  · exact absurd (h2 _ h) (not_lt.mpr (h3 _ hr))
  · exact h
  · exact absurd (h4 _ h) (not_lt.mpr (h1 _ ha))

theorem argmax_peak (row : List ℝ) (h : row ≠ []) : IsPeak row (argmax row) := by
  obtain ⟨ha, h1, h2⟩ := argmin_spec (row.map fun x => -x) (by simpa using h)
  have hl : argmin (row.map fun x => -x) < row.length := by simpa using ha
  refine ⟨hl, fun k hk => ?_, fun k hk => ?_⟩
  · have := h1 k (by simpa using hk)
    simp only [List.getElem_map] at this
    exact neg_le_neg_iff.mp this
  · have := h2 k hk
    simp only [List.getElem_map] at this
    exact neg_lt_neg_iff.mp this

theorem peak_eq {row : List ℝ} {j : Nat} (h : IsPeak row j) : argmax row = j := by
  obtain ⟨hj, h1, h2⟩ := h
  refine argmin_eq _ j (by simpa using hj) (fun k hk => ?_) (fun k hk => ?_)
  · simp only [List.getElem_map]
    exact neg_le_neg (h1 k (by simpa using hk))
  · simp only [List.getElem_map]
    exact neg_lt_neg (h2 k hk)

/-! ### Angles and distances -/

theorem rhos_length (q : Nat) (res : ℝ) : (rhos q res).length = 2 * q + 1 := by simp [rhos]

theorem rhos_get (q : Nat) (res : ℝ) (i : Nat) (h : i < (rhos q res).length) : (rhos q res)[i] = ((i : ℝ) - q) * res := by
  simp [rhos]

theorem thetas_length (res : ℝ) : (thetas res).length = 2 * ⌈90 / res⌉₊ + 1 := by
  simp only [thetas, lowerDegrees, List.length_map, List.length_append, List.length_range, List.length_reverse, List.length_take]
  omega

theorem thetas_get (res : ℝ) (hn : 0 < ⌈90 / res⌉₊) (i : Nat) (h : i < (thetas res).length) :
    (thetas res)[i] = (-90 + i * (90 / (⌈90 / res⌉₊ : ℝ))) * (Real.pi / 180) := by
  have hl : i < 2 * ⌈90 / res⌉₊ + 1 := by rwa [thetas_length] at h
  have hn' : (⌈90 / res⌉₊ : ℝ) ≠ 0 := by positivity
  simp only [thetas, lowerDegrees, List.getElem_map]
  congr 1
  rcases Nat.lt_or_ge i (⌈90 / res⌉₊ + 1) with hi | hi
  · rw [List.getElem_append_left (by simpa using hi)]
    simp
  · rw [List.getElem_append_right (by simpa using hi)]
    simp only [List.getElem_map, List.getElem_reverse, List.getElem_take, List.getElem_range, List.length_map, List.length_range,
      List.length_take]
    have e : (min ⌈90 / res⌉₊ (⌈90 / res⌉₊ + 1) - 1 - (i - (⌈90 / res⌉₊ + 1)) : ℕ) = 2 * ⌈90 / res⌉₊ - i := by omega
    rw [e, Nat.cast_sub (by omega)]
    push_cast
    field_simp
    ring

/-- The rounding of a distance. -/
theorem rhoIndex_iff (q : Nat) (res : ℝ) (hres : 0 < res) (theta : ℝ) (p : Nat × Nat)
    (hv : |p.2 * Real.cos theta + p.1 * Real.sin theta| ≤ q * res) (r : Nat) (hr : r < (rhos q res).length) :
    rhoIndex (rhos q res) theta p = r ↔
      (rhos q res)[r] - res / 2 < p.2 * Real.cos theta + p.1 * Real.sin theta ∧
        p.2 * Real.cos theta + p.1 * Real.sin theta ≤ (rhos q res)[r] + res / 2 := by
  generalize hvv : (p.2 : ℝ) * Real.cos theta + p.1 * Real.sin theta = v at hv
  have hlen : ((rhos q res).map fun x => |x - v|).length = 2 * q + 1 := by simp [rhos]
  have hget : ∀ k (hk : k < ((rhos q res).map fun x => |x - v|).length),
      ((rhos q res).map fun x => |x - v|)[k] = |((k : ℝ) - q) * res - v| := by
    intro k hk
    rw [List.getElem_map, rhos_get]
  have hne : ((rhos q res).map fun x => |x - v|) ≠ [] := by
    intro h0
    rw [h0] at hlen
    simp at hlen
  have key : ∀ s : Nat, s < 2 * q + 1 → ((s : ℝ) - q) * res - res / 2 < v → v ≤ ((s : ℝ) - q) * res + res / 2 →
      argmin ((rhos q res).map fun x => |x - v|) = s := by
    intro s hs h1 h2
    refine argmin_eq _ s (by rw [hlen]; exact hs) (fun k hk => ?_) (fun k hk => ?_)
    · rw [hget, hget]
      have h3 : |((s : ℝ) - q) * res - v| ≤ res / 2 := abs_le.mpr ⟨by linarith, by linarith⟩
      rcases lt_trichotomy k s with h | h | h
      · have : (k : ℝ) + 1 ≤ s := by exact_mod_cast h
        refine le_trans h3 (le_trans ?_ (neg_le_abs _))
        nlinarith
      · rw [h]
      · have : (s : ℝ) + 1 ≤ k := by exact_mod_cast h
        refine le_trans h3 (le_trans ?_ (le_abs_self _))
        nlinarith
    · rw [hget, hget]
      have h3 : ((s : ℝ) - q) * res - v < res / 2 := by linarith
      have : (k : ℝ) + 1 ≤ s := by exact_mod_cast hk
      refine lt_of_lt_of_le (b := v - ((k : ℝ) - q) * res) ?_ (by rw [← neg_sub]; exact neg_le_abs _)
      rw [abs_lt]
      constructor <;> nlinarith
  unfold rhoIndex
  rw [hvv]
  constructor
  · intro hm
    rw [abs_le] at hv
    -- the nearest grid point
    obtain ⟨s, hs, h1, h2⟩ : ∃ s : Nat, s < 2 * q + 1 ∧ ((s : ℝ) - q) * res - res / 2 < v ∧ v ≤ ((s : ℝ) - q) * res + res / 2 := by
      have hz : (0 : ℝ) ≤ v / res + q + 1 / 2 := by
        have : -(q : ℝ) ≤ v / res := by rw [le_div_iff₀ hres]; linarith
        linarith
      refine ⟨⌈v / res + q - 1 / 2⌉₊, ?_, ?_, ?_⟩
      · rw [Nat.lt_add_one_iff, Nat.ceil_le]
        have : v / res ≤ q := by rw [div_le_iff₀ hres]; linarith
        push_cast
        linarith
      · rcases le_or_gt (v / res + q - 1 / 2) 0 with h0 | h0
        · rw [Nat.ceil_eq_zero.mpr h0]
          have : -(q : ℝ) ≤ v / res := by rw [le_div_iff₀ hres]; linarith
          push_cast
          nlinarith
        · have := Nat.ceil_lt_add_one h0.le
          have h4 : ((⌈v / res + q - 1 / 2⌉₊ : ℝ) - q - 1 / 2) * res < v / res * res := by
            apply mul_lt_mul_of_pos_right _ hres
            linarith
          rw [div_mul_cancel₀ _ hres.ne'] at h4
          linarith
      · have := Nat.le_ceil (v / res + q - 1 / 2)
        have h4 : v / res * res ≤ ((⌈v / res + q - 1 / 2⌉₊ : ℝ) - q + 1 / 2) * res := by
          apply mul_le_mul_of_nonneg_right _ hres.le
          linarith
        rw [div_mul_cancel₀ _ hres.ne'] at h4
        linarith
    have := key s hs h1 h2
    rw [rhos_get]
    rw [hm] at this
    subst this
    exact ⟨h1, h2⟩
  · rintro ⟨h1, h2⟩
    rw [rhos_get] at h1 h2
    exact key r (by rwa [rhos_length] at hr) h1 h2

theorem distance_le (img : Image) (res : ℝ) (hres : 0 < res) (theta : ℝ) (p : Nat × Nat) (h1 : p.1 < img.rows) (h2 : p.2 < img.cols) :
    |p.2 * Real.cos theta + p.1 * Real.sin theta| ≤ halfRhos img.rows img.cols res * res := by
  have hc := Real.sin_sq_add_cos_sq theta
  have a1 : (p.1 : ℝ) + 1 ≤ img.rows := by exact_mod_cast h1
  have a2 : (p.2 : ℝ) + 1 ≤ img.cols := by exact_mod_cast h2
  have b1 : (0 : ℝ) ≤ p.1 := Nat.cast_nonneg _
  have b2 : (0 : ℝ) ≤ p.2 := Nat.cast_nonneg _
  have : |p.2 * Real.cos theta + p.1 * Real.sin theta| ≤ Real.sqrt (((img.rows : ℝ) - 1) ^ 2 + ((img.cols : ℝ) - 1) ^ 2) := by
    apply Real.abs_le_sqrt
    have h3 : ((p.2 : ℝ) * Real.cos theta + p.1 * Real.sin theta) ^ 2 ≤ (p.1 : ℝ) ^ 2 + (p.2 : ℝ) ^ 2 := by
      nlinarith [sq_nonneg ((p.2 : ℝ) * Real.sin theta - p.1 * Real.cos theta)]
    nlinarith
  refine this.trans ?_
  rw [← div_le_iff₀ hres]
  exact Nat.le_ceil _

/-! ### Accumulator -/

theorem thetaLoop_get (rs : List ℝ) (p : Nat × Nat) : ∀ (ts : List ℝ) (i : Nat) (acc : Hist2) (r t : Nat),
    thetaLoop rs p ts i acc r (i + t) = acc r (i + t) + if ∃ h : t < ts.length, rhoIndex rs ts[t] p = r then 1 else 0 := by
  intro ts
  induction ts with
  | nil => intro i acc r t; simp [thetaLoop]
  | cons t0 ts ih =>
    intro i acc r t
    simp only [thetaLoop]
    cases t with
    | zero =>
      -- the later steps do not touch this angle
      have hkeep : ∀ (us : List ℝ) (k : Nat) (a : Hist2), i < k → thetaLoop rs p us k a r i = a r i := by
        intro us
        induction us with
        | nil => intro k a _; rfl
        | cons u us ihu =>
          intro k a hk
          simp only [thetaLoop]
          rw [ihu (k + 1) _ (by omega)]
          simp only [Hist2.inc]
          rw [if_neg (by omega)]
      simp only [Nat.add_zero]
      rw [hkeep _ _ _ (by omega)]
      simp only [Hist2.inc]
      by_cases h : r = rhoIndex rs t0 p
      · rw [if_pos (by simp [h]), if_pos ⟨by simp, by simpa using h.symm⟩]
      · rw [if_neg (fun hh => h hh.1), if_neg]
        · rfl
        · rintro ⟨_, h'⟩
          exact h (by simpa using h'.symm)
    | succ t =>
      have := ih (i + 1) (acc.inc (rhoIndex rs t0 p) i) r t
      have e : i + 1 + t = i + (t + 1) := by omega
      rw [e] at this
      rw [this]
      simp only [Hist2.inc]
      rw [if_neg (by omega)]
      congr 1
      by_cases h : ∃ h : t < ts.length, rhoIndex rs ts[t] p = r
      · rw [if_pos h, if_pos]
        obtain ⟨h1, h2⟩ := h
        exact ⟨by simpa using h1, by simpa using h2⟩
      · rw [if_neg h, if_neg]
        rintro ⟨h1, h2⟩
        exact h ⟨by simpa using h1, by simpa using h2⟩

open Classical in
theorem pixelLoop_get (rs ts : List ℝ) (r t : Nat) (ht : t < ts.length) : ∀ (ps : List (Nat × Nat)) (acc : Hist2),
    pixelLoop rs ts ps acc r t = acc r t + ps.countP fun p => rhoIndex rs ts[t] p = r := by
  intro ps
  induction ps with
  | nil => intro acc; simp [pixelLoop]
  | cons p ps ih =>
    intro acc
    simp only [pixelLoop]
    rw [ih]
    have := thetaLoop_get rs p ts 0 acc r t
    simp only [Nat.zero_add] at this
    rw [this, List.countP_cons]
    by_cases h : rhoIndex rs ts[t] p = r
    · rw [if_pos ⟨ht, h⟩]
      simp [h]
      omega
    · rw [if_neg (by rintro ⟨_, h'⟩; exact h h')]
      simp [h]

theorem nonzero_mem (img : Image) (p : Nat × Nat) :
    p ∈ img.nonzero ↔ p.1 < img.rows ∧ p.2 < img.cols ∧ img.pix p.1 p.2 = true := by
  obtain ⟨y, x⟩ := p
  simp only [Image.nonzero, List.mem_flatMap, List.mem_range, List.mem_map, List.mem_filter, Prod.mk.injEq]
  constructor
  · rintro ⟨a, ha, b, ⟨hb, hp⟩, rfl, rfl⟩
    exact ⟨ha, hb, hp⟩
  · rintro ⟨h1, h2, h3⟩
    exact ⟨y, h1, x, ⟨h2, h3⟩, rfl, rfl⟩

theorem nonzero_nodup (img : Image) : img.nonzero.Nodup := by
  unfold Image.nonzero
  rw [List.nodup_flatMap]
  constructor
  · intro y _
    refine List.Nodup.map ?_ (List.nodup_range.filter _)
    intro a b h
    exact (Prod.mk.inj h).2
  · refine List.nodup_range.imp ?_
    intro a b hab
    simp only [Function.onFun, List.disjoint_left, List.mem_map]
    rintro p ⟨x, -, rfl⟩ ⟨x', -, h⟩
    exact hab (Prod.mk.inj h).1.symm

theorem countP_ncard {α : Type} [DecidableEq α] (l : List α) (h : l.Nodup) (P : α → Prop) [DecidablePred P] :
    l.countP (fun a => decide (P a)) = Set.ncard {a | a ∈ l ∧ P a} := by
  have e : {a | a ∈ l ∧ P a} = ((l.filter fun a => decide (P a)).toFinset : Set α) := by
    ext a
    simp
  rw [e, Set.ncard_coe_finset, List.toFinset_card_of_nodup (h.filter _), List.countP_eq_length_filter]

theorem hough_acc (img : Image) (thetaRes rhoRes : ℝ) (hres : 0 < rhoRes) (r t : Nat) (hr : r < (hough img thetaRes rhoRes).rhos.length)
    (ht : t < (hough img thetaRes rhoRes).thetas.length) :
    (hough img thetaRes rhoRes).acc r t =
      votes img (hough img thetaRes rhoRes).thetas[t] (hough img thetaRes rhoRes).rhos[r] rhoRes := by
  classical
  have : (hough img thetaRes rhoRes).acc r t = img.nonzero.countP fun p =>
      rhoIndex (hough img thetaRes rhoRes).rhos (hough img thetaRes rhoRes).thetas[t] p = r := by
    have := pixelLoop_get (hough img thetaRes rhoRes).rhos (hough img thetaRes rhoRes).thetas r t ht img.nonzero fun _ _ => 0
    rw [Nat.zero_add] at this
    rw [← this]
    rfl
  rw [this, countP_ncard _ (nonzero_nodup img)]
  unfold votes
  congr 1
  ext p
  simp only [Set.mem_setOf_eq, nonzero_mem]
  constructor
  · rintro ⟨⟨h1, h2, h3⟩, h4⟩
    have := (rhoIndex_iff _ rhoRes hres _ p (distance_le img rhoRes hres _ p h1 h2) r hr).mp h4
    exact ⟨h1, h2, h3, this⟩
  · rintro ⟨h1, h2, h3, h4⟩
    exact ⟨⟨h1, h2, h3⟩, (rhoIndex_iff _ rhoRes hres _ p (distance_le img rhoRes hres _ p h1 h2) r hr).mpr h4⟩

/-! ### The image of a correlation histogram -/

theorem rows_ne {nd : Node} (hreg : Regular nd) (hb : nd.refBins ≠ 0) (i : Nat) (hi : i < nd.data.length) : nd.data[i] ≠ [] := by
  intro h0
  have := hreg.rows _ (List.getElem_mem hi)
  rw [h0] at this
  exact hb this.symm

theorem maxSelect_get (nd : Node) (i : Nat) (hi : i < nd.data.length) : nd.maxSelect[i]? = some (argmax nd.data[i]) := by
  simp [Node.maxSelect, hi]

theorem image_pix (nd : Node) (y x : Nat) : nd.image.pix y x = true ↔ ∃ h : x < nd.data.length, argmax nd.data[x] = y := by
  simp only [Node.image, beq_iff_eq]
  constructor
  · intro h
    rcases Nat.lt_or_ge x nd.data.length with hx | hx
    · rw [maxSelect_get nd x hx] at h
      exact ⟨hx, Option.some.inj h⟩
    · rw [List.getElem?_eq_none (by simpa [Node.maxSelect] using hx)] at h
      exact absurd h (by simp)
  · rintro ⟨h, rfl⟩
    exact maxSelect_get nd x h

theorem votes_support {nd : Node} (hreg : Regular nd) (hb : nd.refBins ≠ 0) (theta rho : ℝ) :
    votes nd.image theta rho 1 = support nd theta rho := by
  unfold votes support
  have e : {i : Nat | ∃ (h : i < nd.data.length) (j : Nat), IsPeak nd.data[i] j ∧
      rho - 1 / 2 < i * Real.cos theta + j * Real.sin theta ∧ i * Real.cos theta + j * Real.sin theta ≤ rho + 1 / 2} =
      Prod.snd '' {p : Nat × Nat | p.1 < nd.image.rows ∧ p.2 < nd.image.cols ∧ nd.image.pix p.1 p.2 = true ∧
        rho - 1 / 2 < p.2 * Real.cos theta + p.1 * Real.sin theta ∧ p.2 * Real.cos theta + p.1 * Real.sin theta ≤ rho + 1 / 2} := by
    ext i
    simp only [Set.mem_setOf_eq, Set.mem_image, Prod.exists, exists_eq_right, image_pix]
    constructor
    · rintro ⟨hi, j, hj, h⟩
      refine ⟨j, ?_, hi, ⟨hi, peak_eq hj⟩, h⟩
      have := hj.1
      rw [hreg.rows _ (List.getElem_mem hi)] at this
      exact this
    · rintro ⟨j, hj, hi, ⟨hi', he⟩, h⟩
      exact ⟨hi', j, he ▸ argmax_peak _ (rows_ne hreg hb i hi'), h⟩
  rw [e, Set.ncard_image_of_injOn]
  rintro ⟨y, x⟩ ⟨-, -, h1, -⟩ ⟨y', x'⟩ ⟨-, -, h2, -⟩ h
  simp only at h
  subst h
  obtain ⟨_, h1⟩ := (image_pix nd _ _).mp h1
  obtain ⟨_, h2⟩ := (image_pix nd _ _).mp h2
  have : y = y' := h1.symm.trans h2
  rw [this]

theorem getD_get (l : List ℝ) (i : Nat) (h : i < l.length) : l.getD i 0 = l[i] := by simp [List.getD, h]

/-! ### The selected line -/

/-- The cell is accepted. -/
def Accepted (hg : Hough) (c : Nat × Nat) : Prop :=
  ∃ l, lineOf (hg.rhos.getD c.1 0) (hg.thetas.getD c.2 0) = some l ∧ properSlope l.slope = true

theorem findLine_error (hg : Hough) : ∀ (cs : List (Nat × Nat)) (e : Err), findLine hg cs = .error e →
    e = .noCorrelation ∧ ∀ c ∈ cs, ¬ Accepted hg c := by
  intro cs
  induction cs with
  | nil =>
    intro e h
    simp only [findLine] at h
    exact ⟨(Except.error.inj h).symm, by simp⟩
  | cons c cs ih =>
    intro e h
    simp only [findLine] at h
    split at h
    · rename_i hl
      obtain ⟨h1, h2⟩ := ih e h
      refine ⟨h1, fun c' hc' => ?_⟩
      rcases List.mem_cons.mp hc' with rfl | hc'
      · rintro ⟨l, hl', -⟩
        rw [hl] at hl'
        exact absurd hl' (by simp)
      · exact h2 c' hc'
    · rename_i l hl
      split at h
      · exact absurd h (by simp)
      · rename_i hp
        obtain ⟨h1, h2⟩ := ih e h
        refine ⟨h1, fun c' hc' => ?_⟩
        rcases List.mem_cons.mp hc' with rfl | hc'
        · rintro ⟨l', hl', hp'⟩
          rw [hl] at hl'
          rw [Option.some.inj hl'] at hp
          exact hp hp'
        · exact h2 c' hc'

theorem findLine_ok (hg : Hough) (f : Nat × Nat → Nat) : ∀ (cs : List (Nat × Nat)) (l : Line), findLine hg cs = .ok l →
    (cs.Pairwise fun a b => f b ≤ f a) →
    ∃ c ∈ cs, lineOf (hg.rhos.getD c.1 0) (hg.thetas.getD c.2 0) = some l ∧ properSlope l.slope = true ∧
      ∀ c' ∈ cs, Accepted hg c' → f c' ≤ f c := by
  intro cs
  induction cs with
  | nil => intro l h _; simp [findLine] at h
  | cons c cs ih =>
    intro l h hp
    rw [List.pairwise_cons] at hp
    have later : (¬ Accepted hg c) → findLine hg cs = .ok l → ∃ c' ∈ c :: cs,
        lineOf (hg.rhos.getD c'.1 0) (hg.thetas.getD c'.2 0) = some l ∧ properSlope l.slope = true ∧
          ∀ c'' ∈ c :: cs, Accepted hg c'' → f c'' ≤ f c' := by
      intro hna hl
      obtain ⟨c', hc', h1, h2, h3⟩ := ih l hl hp.2
      refine ⟨c', List.mem_cons_of_mem _ hc', h1, h2, fun c'' hc'' ha => ?_⟩
      rcases List.mem_cons.mp hc'' with rfl | hc''
      · exact absurd ha hna
      · exact h3 c'' hc'' ha
    simp only [findLine] at h
    split at h
    · rename_i hl
      refine later ?_ h
      rintro ⟨l', hl', -⟩
      rw [hl] at hl'
      exact absurd hl' (by simp)
    · rename_i l' hl
      split at h
      · rename_i hs
        have := Except.ok.inj h
        subst this
        refine ⟨c, List.mem_cons_self, hl, hs, fun c' hc' _ => ?_⟩
        rcases List.mem_cons.mp hc' with rfl | hc'
        · exact le_refl _
        · exact hp.1 c' hc'
      · rename_i hs
        refine later ?_ h
        rintro ⟨l'', hl'', hs'⟩
        rw [hl] at hl''
        rw [Option.some.inj hl''] at hs
        exact hs hs'

theorem largest_mem (env : Env) (hs : Sorts env) (hg : Hough) (c : Nat × Nat) (h : hg.acc c.1 c.2 ≠ 0)
    (hr : c.1 < hg.rhos.length) (ht : c.2 < hg.thetas.length) : c ∈ largestIndices env hg := by
  unfold largestIndices
  dsimp only
  rw [(hs _ _).1.mem_iff]
  have hm : c ∈ (((List.range hg.rhos.length).flatMap fun r => (List.range hg.thetas.length).map fun t => (r, t)).filter
      fun c => hg.acc c.1 c.2 != 0) := by
    rw [List.mem_filter]
    refine ⟨?_, by simpa using h⟩
    simp only [List.mem_flatMap, List.mem_range, List.mem_map]
    exact ⟨c.1, hr, c.2, ht, rfl⟩
  rw [if_neg]
  · exact hm
  · intro h0
    rw [List.isEmpty_iff] at h0
    rw [h0] at hm
    exact absurd hm (by simp)

theorem largest_range (env : Env) (hs : Sorts env) (hg : Hough) (c : Nat × Nat) (h : c ∈ largestIndices env hg) :
    c.1 < hg.rhos.length ∧ c.2 < hg.thetas.length := by
  unfold largestIndices at h
  dsimp only at h
  rw [(hs _ _).1.mem_iff] at h
  have hm : c ∈ ((List.range hg.rhos.length).flatMap fun r => (List.range hg.thetas.length).map fun t => (r, t)) := by
    split at h
    · exact h
    · exact (List.mem_filter.mp h).1
  simp only [List.mem_flatMap, List.mem_range, List.mem_map] at hm
  obtain ⟨r, hr, t, ht, rfl⟩ := hm
  exact ⟨hr, ht⟩

/-- Half a grid distance for a proper slope. -/
theorem ceil900 : ⌈(90 : ℝ) / (1 / 10)⌉₊ = 900 := by
  have : (90 : ℝ) / (1 / 10) = ((900 : ℕ) : ℝ) := by norm_num
  rw [this, Nat.ceil_natCast]

theorem thetas_length' : (thetas (1 / 10)).length = 1801 := by rw [thetas_length, ceil900]

theorem thetas_get' (i : Nat) (h : i < (thetas (1 / 10)).length) :
    (thetas (1 / 10))[i] = (-90 + i / 10) * (Real.pi / 180) := by
  rw [thetas_get _ (by rw [ceil900]; norm_num), ceil900]
  push_cast
  ring

/-- The angle of the slope `s`. -/
theorem theta_diag (s : ℝ) (hs : s = 1 ∨ s = -1) : ∃ t, ∃ h : t < (thetas (1 / 10)).length,
    Real.cos (thetas (1 / 10))[t] = Real.sqrt 2 / 2 ∧ Real.sin (thetas (1 / 10))[t] = -s * (Real.sqrt 2 / 2) := by
  rcases hs with rfl | rfl
  · refine ⟨450, by rw [thetas_length']; norm_num, ?_⟩
    rw [thetas_get']
    have e : (-90 + ((450 : ℕ) : ℝ) / 10) * (Real.pi / 180) = -(Real.pi / 4) := by push_cast; ring
    rw [e, Real.cos_neg, Real.sin_neg, Real.cos_pi_div_four, Real.sin_pi_div_four]
    exact ⟨rfl, by ring⟩
  · refine ⟨1350, by rw [thetas_length']; norm_num, ?_⟩
    rw [thetas_get']
    have e : (-90 + ((1350 : ℕ) : ℝ) / 10) * (Real.pi / 180) = Real.pi / 4 := by push_cast; ring
    rw [e, Real.cos_pi_div_four, Real.sin_pi_div_four]
    exact ⟨rfl, by ring⟩

theorem properSlope_iff (m : ℝ) : properSlope m = true ↔ |m - 1| ≤ 1 / 10 ∨ |m + 1| ≤ 1 / 10 := by
  classical
  simp [properSlope]

theorem diag_accepted (hg : Hough) (r t : Nat) (s : ℝ) (hs : s = 1 ∨ s = -1) (ht : t < hg.thetas.length)
    (hc : Real.cos hg.thetas[t] = Real.sqrt 2 / 2) (hsn : Real.sin hg.thetas[t] = -s * (Real.sqrt 2 / 2)) : Accepted hg (r, t) := by
  have h2 : (0 : ℝ) < Real.sqrt 2 / 2 := by positivity
  have hne : Real.sin hg.thetas[t] ≠ 0 := by
    rw [hsn]
    rcases hs with rfl | rfl
    · simpa using h2.ne'
    · simpa using h2.ne'
  refine ⟨⟨-Real.cos hg.thetas[t] / Real.sin hg.thetas[t], hg.rhos.getD r 0 / Real.sin hg.thetas[t]⟩, ?_, ?_⟩
  · show lineOf (hg.rhos.getD r 0) (hg.thetas.getD t 0) = _
    rw [getD_get _ t ht]
    unfold lineOf
    rw [if_neg hne]
  · rw [properSlope_iff]
    dsimp only
    rw [hc, hsn]
    rcases hs with rfl | rfl
    · left
      have : -(Real.sqrt 2 / 2) / (-1 * (Real.sqrt 2 / 2)) = 1 := by field_simp
      rw [this]
      norm_num
    · right
      have : -(Real.sqrt 2 / 2) / (- -1 * (Real.sqrt 2 / 2)) = -1 := by field_simp
      rw [this]
      norm_num

/-- The Hough transformation of a node. -/
noncomputable abbrev Node.hg (nd : Node) : Hough := hough nd.image (1 / 10) 1

theorem node_acc {nd : Node} (hreg : Regular nd) (hb : nd.refBins ≠ 0) (r t : Nat) (hr : r < nd.hg.rhos.length)
    (ht : t < nd.hg.thetas.length) : nd.hg.acc r t = support nd nd.hg.thetas[t] nd.hg.rhos[r] := by
  rw [hough_acc _ _ _ one_pos r t hr ht, votes_support hreg hb]

/-- A distance that is an integer and has votes is in the grid. -/
theorem rho_grid {nd : Node} (hreg : Regular nd) (theta : ℝ) (z : ℤ) (h : support nd theta z ≠ 0) :
    ∃ r, ∃ hr : r < nd.hg.rhos.length, nd.hg.rhos[r] = z := by
  have hne : Set.Nonempty {i : Nat | ∃ (h : i < nd.data.length) (j : Nat), IsPeak nd.data[i] j ∧
      (z : ℝ) - 1 / 2 < i * Real.cos theta + j * Real.sin theta ∧ i * Real.cos theta + j * Real.sin theta ≤ z + 1 / 2} :=
    Set.nonempty_of_ncard_ne_zero h
  obtain ⟨i, hi, j, hj, h1, h2⟩ := hne
  have hjr : j < nd.image.rows := by
    have := hj.1
    rw [hreg.rows _ (List.getElem_mem hi)] at this
    exact this
  have hv := distance_le nd.image 1 one_pos theta (j, i) hjr hi
  dsimp only at hv
  rw [mul_one, abs_le] at hv
  have e : nd.hg.rhos = rhos (halfRhos nd.image.rows nd.image.cols 1) 1 := rfl
  suffices ∀ q : Nat, -(q : ℝ) ≤ i * Real.cos theta + j * Real.sin theta ∧ i * Real.cos theta + j * Real.sin theta ≤ (q : ℝ) →
      ∃ r, ∃ hr : r < (rhos q 1).length, (rhos q 1)[r] = z from this _ hv
  clear hv e
  intro q hv
  have z1 : (-(q : ℤ)) ≤ z := by
    by_contra hz
    have : z + 1 ≤ -(q : ℤ) := by omega
    have : (z : ℝ) + 1 ≤ -(q : ℝ) := by exact_mod_cast this
    linarith [hv.1]
  have z2 : z ≤ (q : ℤ) := by
    by_contra hz
    have : (q : ℤ) + 1 ≤ z := by omega
    have : (q : ℝ) + 1 ≤ z := by exact_mod_cast this
    linarith [hv.2]
  have hr : (z + q).toNat < (rhos q 1).length := by rw [rhos_length]; omega
  refine ⟨(z + q).toNat, hr, ?_⟩
  rw [rhos_get]
  have : (((z + q).toNat : ℤ) : ℝ) = ((z + q : ℤ) : ℝ) := by rw [Int.toNat_of_nonneg (by omega)]
  push_cast at this
  rw [this]
  ring

/-- What is known about the selected line. -/
structure Best (nd : Node) (l : Line) where
  theta : ℝ
  rho : ℝ
  sin_ne : Real.sin theta ≠ 0
  slope : l.slope = -Real.cos theta / Real.sin theta
  offset : l.offset = rho / Real.sin theta
  proper : |l.slope - 1| ≤ 1 / 10 ∨ |l.slope + 1| ≤ 1 / 10
  gridTheta : theta ∈ nd.hg.thetas
  gridRho : rho ∈ nd.hg.rhos
  best : ∀ t ∈ nd.hg.thetas, ∀ r ∈ nd.hg.rhos, Real.sin t ≠ 0 →
    (|-Real.cos t / Real.sin t - 1| ≤ 1 / 10 ∨ |-Real.cos t / Real.sin t + 1| ≤ 1 / 10) → support nd t r ≤ support nd theta rho

theorem line_ok {env : Env} (hs : Sorts env) {nd : Node} (hreg : Regular nd) {l : Line} (h : nd.line env = .ok l) :
    nd.refBins ≠ 0 ∧ nd.data ≠ [] ∧ Nonempty (Best nd l) := by
  unfold Node.line at h
  split at h
  · exact absurd h (by simp)
  rename_i h0
  split at h
  · exact absurd h (by simp)
  have hb : nd.refBins ≠ 0 := by
    intro hb
    exact h0 (by simp [hb])
  have hd : nd.data ≠ [] := by
    intro hd
    exact h0 (by simp [hd])
  refine ⟨hb, hd, ?_⟩
  obtain ⟨c, hc, hl, hp, hbest⟩ := findLine_ok nd.hg (fun c => nd.hg.acc c.1 c.2) _ l h (hs _ _).2
  obtain ⟨hr, ht⟩ := largest_range env hs nd.hg c hc
  rw [getD_get _ _ hr, getD_get _ _ ht] at hl
  unfold lineOf at hl
  split at hl
  · exact absurd hl (by simp)
  rename_i hsin
  have hl := Option.some.inj hl
  have hp' := (properSlope_iff _).mp hp
  refine ⟨{ theta := nd.hg.thetas[c.2], rho := nd.hg.rhos[c.1], sin_ne := hsin, slope := (by rw [← hl]), offset := (by rw [← hl]), proper := hp', gridTheta := List.getElem_mem ht, gridRho := List.getElem_mem hr, best := ?_ }⟩
  intro t0 ht0 r0 hr0 hs0 hp0
  obtain ⟨t, ht', rfl⟩ := List.getElem_of_mem ht0
  obtain ⟨r, hr', rfl⟩ := List.getElem_of_mem hr0
  rw [← node_acc hreg hb r t hr' ht', ← node_acc hreg hb c.1 c.2 hr ht]
  by_cases hz : nd.hg.acc r t = 0
  · rw [hz]
    exact Nat.zero_le _
  · refine hbest (r, t) (largest_mem env hs nd.hg (r, t) hz hr' ht') ⟨⟨-Real.cos nd.hg.thetas[t] / Real.sin nd.hg.thetas[t],
      nd.hg.rhos[r] / Real.sin nd.hg.thetas[t]⟩, ?_, (properSlope_iff _).mpr hp0⟩
    rw [getD_get _ _ hr', getD_get _ _ ht']
    unfold lineOf
    rw [if_neg hs0]

/-- The error at L306 does not occur. -/
theorem line_never (env : Env) (hs : Sorts env) (nd : Node) (hreg : Regular nd) : nd.line env ≠ .error .noCorrelation := by
  intro h
  unfold Node.line at h
  split at h
  · exact absurd h (by simp)
  rename_i h0
  split at h
  · exact absurd h (by simp)
  have hb : nd.refBins ≠ 0 := by
    intro hb
    exact h0 (by simp [hb])
  have hd : 0 < nd.data.length := by
    rw [List.length_pos_iff]
    intro hd
    exact h0 (by simp [hd])
  obtain ⟨-, hnone⟩ := findLine_error nd.hg _ _ h
  obtain ⟨t, ht, hc, hsn⟩ := theta_diag 1 (.inl rfl)
  -- the first bin of the DUT votes for this angle
  have hr := (argmin_spec (nd.hg.rhos.map fun r => |r - (((0 : Nat) : ℝ) * Real.cos (thetas (1 / 10))[t]
    + ((argmax nd.data[0] : Nat) : ℝ) * Real.sin (thetas (1 / 10))[t])|) (by simp [hough, rhos])).1
  rw [List.length_map] at hr
  set r := argmin (nd.hg.rhos.map fun r => |r - (((0 : Nat) : ℝ) * Real.cos (thetas (1 / 10))[t]
    + ((argmax nd.data[0] : Nat) : ℝ) * Real.sin (thetas (1 / 10))[t])|) with hrd
  have hacc : nd.hg.acc r t ≠ 0 := by
    classical
    have := pixelLoop_get nd.hg.rhos nd.hg.thetas r t ht nd.image.nonzero fun _ _ => 0
    have h1 : nd.hg.acc r t = _ := this
    rw [h1, Nat.zero_add]
    apply Nat.pos_iff_ne_zero.mp
    rw [List.countP_pos_iff]
    refine ⟨(argmax nd.data[0], 0), ?_, ?_⟩
    · rw [nonzero_mem]
      refine ⟨?_, hd, (image_pix nd _ _).mpr ⟨hd, rfl⟩⟩
      have := (argmax_peak _ (rows_ne hreg hb 0 hd)).1
      rw [hreg.rows _ (List.getElem_mem hd)] at this
      exact this
    · simp only [decide_eq_true_eq]
      rfl
  exact hnone (r, t) (largest_mem env hs nd.hg (r, t) hacc hr ht) (diag_accepted nd.hg r t 1 (.inl rfl) ht hc hsn)

/-! ### Accuracy of the line -/

/-- The bins counted by `support`. -/
def supportSet (nd : Node) (theta rho : ℝ) : Set Nat :=
  {i : Nat | ∃ (h : i < nd.data.length) (j : Nat), IsPeak nd.data[i] j ∧
    rho - 1 / 2 < i * Real.cos theta + j * Real.sin theta ∧ i * Real.cos theta + j * Real.sin theta ≤ rho + 1 / 2}

theorem supportSet_sub (nd : Node) (theta rho : ℝ) : supportSet nd theta rho ⊆ Set.Iio nd.data.length := fun _ h => h.1

theorem supportSet_finite (nd : Node) (theta rho : ℝ) : (supportSet nd theta rho).Finite :=
  (Set.finite_Iio _).subset (supportSet_sub nd theta rho)

theorem ncard_Iio (n : Nat) : Set.ncard (Set.Iio n) = n := by
  have : (Set.Iio n : Set Nat) = ((Finset.range n : Finset Nat) : Set Nat) := by ext; simp
  rw [this, Set.ncard_coe_finset, Finset.card_range]

theorem sin_bound {theta m : ℝ} (hs : Real.sin theta ≠ 0) (hm : m = -Real.cos theta / Real.sin theta)
    (hp : |m - 1| ≤ 1 / 10 ∨ |m + 1| ≤ 1 / 10) : 2 / 3 ≤ |Real.sin theta| := by
  have hm2 : m ^ 2 ≤ 121 / 100 := by
    rcases hp with h | h <;> rw [abs_le] at h <;> nlinarith [h.1, h.2]
  have hc : Real.cos theta = -(m * Real.sin theta) := by rw [hm]; field_simp
  have h1 := Real.sin_sq_add_cos_sq theta
  rw [hc] at h1
  by_contra hlt
  rw [not_le] at hlt
  have h2 : Real.sin theta ^ 2 < 4 / 9 := by
    rw [← sq_abs]
    nlinarith [abs_nonneg (Real.sin theta)]
  nlinarith [sq_nonneg (Real.sin theta)]

theorem near {nd : Node} {l : Line} (b : Best nd l) {i j : Nat} (h1 : b.rho - 1 / 2 < i * Real.cos b.theta + j * Real.sin b.theta)
    (h2 : i * Real.cos b.theta + j * Real.sin b.theta ≤ b.rho + 1 / 2) : |l.slope * i + l.offset - j| ≤ 3 / 4 := by
  have hs := sin_bound b.sin_ne b.slope b.proper
  have e : l.slope * i + l.offset - j = (b.rho - (i * Real.cos b.theta + j * Real.sin b.theta)) / Real.sin b.theta := by
    rw [b.slope, b.offset]
    have := b.sin_ne
    field_simp
    ring
  rw [e, abs_div, div_le_iff₀ (by linarith)]
  have : |b.rho - (i * Real.cos b.theta + j * Real.sin b.theta)| ≤ 1 / 2 := by rw [abs_le]; constructor <;> linarith
  linarith

/-- Distance of the expected position from the line at a bin that supports the line. -/
theorem near_pos {nd : Node} (hreg : Regular nd) {l : Line} (b : Best nd l) {s pos tol : ℝ} (hc : Correlated nd s pos tol) {i : Nat}
    (hi : i ∈ supportSet nd b.theta b.rho) :
    |(l.slope - s) * nd.resolution * (i - ((nd.data.length : ℝ) - 1) / 2) + (nd.offsetCenter l - pos)| ≤ 3 / 4 * nd.resolution + tol := by
  obtain ⟨hi, j, hj, h1, h2⟩ := hi
  have hn := near b h1 h2
  have hcor := hc i hi j hj
  have hb := hreg.res
  have e1 : (l.slope - s) * nd.resolution * (i - ((nd.data.length : ℝ) - 1) / 2) + (nd.offsetCenter l - pos)
      = nd.resolution * (l.slope * i + l.offset - j) + (refCentre nd j - (s * (dutCentre nd i - dutMiddle nd) + pos)) := by
    have hx := hreg.extent
    have e2 : dutCentre nd i - dutMiddle nd = nd.resolution * (i - ((nd.data.length : ℝ) - 1) / 2) := by
      unfold dutCentre dutMiddle
      have : nd.dutExtent.2 = nd.dutExtent.1 + nd.data.length * nd.resolution := by linarith
      rw [this]
      ring
    rw [e2]
    unfold Node.offsetCenter Node.offset refCentre
    rw [hx]
    ring
  rw [e1]
  refine (abs_add_le _ _).trans (add_le_add ?_ hcor)
  rw [abs_mul, abs_of_pos hb]
  nlinarith

/-- The votes for the direction of the correlation are within a small window. -/
theorem window {nd : Node} (hreg : Regular nd) {s pos tol : ℝ} (hs : s = 1 ∨ s = -1) (hc : Correlated nd s pos tol) :
    ∃ K : ℝ, ∀ i (h : i < nd.data.length) j, IsPeak nd.data[i] j → |(i : ℝ) - s * j - K| ≤ tol / nd.resolution := by
  refine ⟨-s * ((pos - nd.refExtent.1) / nd.resolution - 1 / 2 + s * (1 / 2 - nd.data.length / 2)), fun i h j hj => ?_⟩
  have hcor := hc i h j hj
  have hb := hreg.res
  have hss : s * s = 1 := by rcases hs with rfl | rfl <;> norm_num
  have hab : |s| = 1 := by rcases hs with rfl | rfl <;> norm_num
  rw [le_div_iff₀ hb]
  have e : ((i : ℝ) - s * j - -s * ((pos - nd.refExtent.1) / nd.resolution - 1 / 2 + s * (1 / 2 - nd.data.length / 2))) * nd.resolution
      = -s * (refCentre nd j - (s * (dutCentre nd i - dutMiddle nd) + pos)) := by
    have hx : nd.dutExtent.2 = nd.dutExtent.1 + nd.data.length * nd.resolution := by linarith [hreg.extent]
    unfold refCentre dutCentre dutMiddle
    rw [hx]
    have : (pos - nd.refExtent.1) / nd.resolution * nd.resolution = pos - nd.refExtent.1 := div_mul_cancel₀ _ hb.ne'
    have key : ((i : ℝ) - s * j - -s * ((pos - nd.refExtent.1) / nd.resolution - 1 / 2 + s * (1 / 2 - nd.data.length / 2))) * nd.resolution
        = (i - s * j) * nd.resolution + s * ((pos - nd.refExtent.1) / nd.resolution * nd.resolution) - s * nd.resolution / 2
          + s * s * (1 / 2 - nd.data.length / 2) * nd.resolution := by ring
    rw [key, this]
    have k2 : -s * (nd.refExtent.1 + ((j : ℝ) + 1 / 2) * nd.resolution - (s * (nd.dutExtent.1 + ((i : ℝ) + 1 / 2) * nd.resolution
        - (nd.dutExtent.1 + (nd.dutExtent.1 + nd.data.length * nd.resolution)) / 2) + pos))
        = -s * (nd.refExtent.1 + ((j : ℝ) + 1 / 2) * nd.resolution - pos) + s * s * ((i + 1 / 2 - nd.data.length / 2) * nd.resolution) := by
      ring
    rw [k2, hss]
    ring
  have : |(i : ℝ) - s * j - -s * ((pos - nd.refExtent.1) / nd.resolution - 1 / 2 + s * (1 / 2 - nd.data.length / 2))| * nd.resolution
      = |refCentre nd j - (s * (dutCentre nd i - dutMiddle nd) + pos)| := by
    rw [← abs_of_pos hb, ← abs_mul, abs_of_pos hb, e, abs_mul, abs_neg, hab, one_mul]
  rw [this]
  exact hcor

/-- No integer distance at the angle of the slope `s` has more votes. -/
theorem best_diag {nd : Node} (hreg : Regular nd) {l : Line} (b : Best nd l) {s : ℝ} (hs : s = 1 ∨ s = -1) :
    ∃ t : ℝ, Real.cos t = Real.sqrt 2 / 2 ∧ Real.sin t = -s * (Real.sqrt 2 / 2) ∧
      ∀ z : ℤ, (supportSet nd t z).ncard ≤ (supportSet nd b.theta b.rho).ncard := by
  obtain ⟨t, ht, hc, hsn⟩ := theta_diag s hs
  refine ⟨_, hc, hsn, fun z => ?_⟩
  have h2 : (0 : ℝ) < Real.sqrt 2 / 2 := by positivity
  by_cases h0 : support nd (thetas (1 / 10))[t] z = 0
  · have : (supportSet nd (thetas (1 / 10))[t] z).ncard = 0 := h0
    rw [this]
    exact Nat.zero_le _
  · obtain ⟨r, hr, hz⟩ := rho_grid hreg _ z h0
    have := b.best (thetas (1 / 10))[t] (List.getElem_mem ht) nd.hg.rhos[r] (List.getElem_mem hr)
      (by rw [hsn]; rcases hs with rfl | rfl <;> simpa using h2.ne')
      (by
        rw [hc, hsn]
        rcases hs with rfl | rfl
        · left
          have : -(Real.sqrt 2 / 2) / (-1 * (Real.sqrt 2 / 2)) = 1 := by field_simp
          rw [this]
          norm_num
        · right
          have : -(Real.sqrt 2 / 2) / (- -1 * (Real.sqrt 2 / 2)) = -1 := by field_simp
          rw [this]
          norm_num)
    rw [hz] at this
    exact this

theorem sqrt_half : Real.sqrt 2 / 2 ≤ 1 := by
  have : Real.sqrt 2 ≤ 2 := by
    rw [Real.sqrt_le_left (by norm_num)]
    norm_num
  linarith

/-- Without tolerance all bins support the line. -/
theorem full_support {nd : Node} (hreg : Regular nd) (hb : nd.refBins ≠ 0) {l : Line} (b : Best nd l) {s pos : ℝ} (hs : s = 1 ∨ s = -1)
    (hc : Correlated nd s pos 0) : supportSet nd b.theta b.rho = Set.Iio nd.data.length := by
  obtain ⟨K, hK⟩ := window hreg hs hc
  obtain ⟨t, hct, hst, hbest⟩ := best_diag hreg b hs
  have h2 : (0 : ℝ) < Real.sqrt 2 / 2 := by positivity
  have hall : supportSet nd t (⌈Real.sqrt 2 / 2 * K - 1 / 2⌉ : ℤ) = Set.Iio nd.data.length := by
    refine Set.Subset.antisymm (supportSet_sub _ _ _) (fun i hi => ?_)
    refine ⟨hi, _, argmax_peak _ (rows_ne hreg hb i hi), ?_⟩
    have := hK i hi _ (argmax_peak _ (rows_ne hreg hb i hi))
    rw [zero_div] at this
    have hk : (i : ℝ) - s * (argmax nd.data[i] : ℕ) = K := by
      have := abs_nonpos_iff.mp this
      linarith
    have e : (i : ℝ) * Real.cos t + (argmax nd.data[i] : ℕ) * Real.sin t = Real.sqrt 2 / 2 * K := by
      rw [hct, hst, ← hk]
      ring
    rw [e]
    have c1 := Int.le_ceil (Real.sqrt 2 / 2 * K - 1 / 2)
    have c2 := Int.ceil_lt_add_one (Real.sqrt 2 / 2 * K - 1 / 2)
    constructor <;> linarith
  have hle := hbest ⌈Real.sqrt 2 / 2 * K - 1 / 2⌉
  rw [hall, ncard_Iio] at hle
  refine Set.eq_of_subset_of_ncard_le (supportSet_sub _ _ _) ?_ (Set.finite_Iio _)
  rw [ncard_Iio]
  exact hle

/-- With a tolerance of half a bin at least half of the bins support the line. -/
theorem half_support {nd : Node} (hreg : Regular nd) (hb : nd.refBins ≠ 0) {l : Line} (b : Best nd l) {s pos tol : ℝ}
    (hs : s = 1 ∨ s = -1) (hc : Correlated nd s pos tol) (htol : tol ≤ nd.resolution / 2) :
    nd.data.length ≤ 2 * (supportSet nd b.theta b.rho).ncard := by
  obtain ⟨K, hK⟩ := window hreg hs hc
  obtain ⟨t, hct, hst, hbest⟩ := best_diag hreg b hs
  have h2 : (0 : ℝ) < Real.sqrt 2 / 2 := by positivity
  have h21 := sqrt_half
  have htr : tol / nd.resolution ≤ 1 / 2 := by
    rw [div_le_iff₀ hreg.res]
    linarith
  set z := ⌈Real.sqrt 2 / 2 * (K - 1 / 2) - 1 / 2⌉ with hz
  have c1 := Int.le_ceil (Real.sqrt 2 / 2 * (K - 1 / 2) - 1 / 2)
  have c2 := Int.ceil_lt_add_one (Real.sqrt 2 / 2 * (K - 1 / 2) - 1 / 2)
  have hcover : Set.Iio nd.data.length ⊆ supportSet nd t (z : ℤ) ∪ supportSet nd t ((z + 1 : ℤ) : ℝ) := by
    intro i hi
    have hpk := argmax_peak _ (rows_ne hreg hb i hi)
    have := (hK i hi _ hpk).trans htr
    rw [abs_le] at this
    have e : (i : ℝ) * Real.cos t + (argmax nd.data[i] : ℕ) * Real.sin t = Real.sqrt 2 / 2 * ((i : ℝ) - s * (argmax nd.data[i] : ℕ)) := by
      rw [hct, hst]
      ring
    have lo : Real.sqrt 2 / 2 * (K - 1 / 2) ≤ Real.sqrt 2 / 2 * ((i : ℝ) - s * (argmax nd.data[i] : ℕ)) :=
      mul_le_mul_of_nonneg_left (by linarith) h2.le
    have hi' : Real.sqrt 2 / 2 * ((i : ℝ) - s * (argmax nd.data[i] : ℕ)) ≤ Real.sqrt 2 / 2 * (K - 1 / 2) + Real.sqrt 2 / 2 := by
      have : Real.sqrt 2 / 2 * ((i : ℝ) - s * (argmax nd.data[i] : ℕ)) ≤ Real.sqrt 2 / 2 * (K - 1 / 2 + 1) :=
        mul_le_mul_of_nonneg_left (by linarith) h2.le
      linarith
    by_cases hle : Real.sqrt 2 / 2 * ((i : ℝ) - s * (argmax nd.data[i] : ℕ)) ≤ z + 1 / 2
    · left
      refine ⟨hi, _, hpk, ?_, ?_⟩
      · rw [e]; linarith
      · rw [e]; exact hle
    · right
      refine ⟨hi, _, hpk, ?_, ?_⟩
      · rw [e]; push_cast; linarith
      · rw [e]; push_cast; linarith
  have n1 := Set.ncard_le_ncard hcover ((supportSet_finite _ _ _).union (supportSet_finite _ _ _))
  rw [ncard_Iio] at n1
  have n2 := Set.ncard_union_le (supportSet nd t (z : ℤ)) (supportSet nd t ((z + 1 : ℤ) : ℝ))
  have n3 := hbest z
  have n4 := hbest (z + 1)
  omega

/-- At least half of `n` numbers are not all on one side of the centre. -/
theorem half_sides (n : Nat) (S : Set Nat) (hS : S ⊆ Set.Iio n) (hn : 0 < n) (h : n ≤ 2 * S.ncard) :
    (∃ i ∈ S, 2 * i ≤ n) ∧ ∃ i ∈ S, n ≤ 2 * i + 2 := by
  have fin : ∀ P : Finset Nat, S ⊆ (P : Set Nat) → 2 * P.card < n → False := by
    intro P hP hc
    have := Set.ncard_le_ncard hP (Finset.finite_toSet P)
    rw [Set.ncard_coe_finset] at this
    omega
  constructor
  · by_contra hno
    push Not at hno
    refine fin (Finset.Ico (n / 2 + 1) n) (fun i hi => ?_) ?_
    · have h1 := hno i hi
      have h2 := hS hi
      simp only [Set.mem_Iio] at h2
      simp only [Finset.coe_Ico, Set.mem_Ico]
      omega
    · rw [Nat.card_Ico]; omega
  · by_contra hno
    push Not at hno
    refine fin (Finset.range ((n - 1) / 2)) (fun i hi => ?_) ?_
    · have h1 := hno i hi
      simp only [Finset.coe_range, Set.mem_Iio]
      omega
    · rw [Finset.card_range]; omega

/-- Three numbers are not within a distance of one. -/
theorem three_apart (S : Set Nat) (h : 3 ≤ S.ncard) : ∃ i ∈ S, ∃ k ∈ S, i + 2 ≤ k := by
  by_contra hno
  push Not at hno
  have hne : S.Nonempty := Set.nonempty_of_ncard_ne_zero (by omega)
  have hsub : S ⊆ (({sInf S, sInf S + 1} : Finset Nat) : Set Nat) := by
    intro i hi
    have h1 := Nat.sInf_le hi
    have h2 := hno _ (Nat.sInf_mem hne) i hi
    simp only [Finset.coe_insert, Finset.coe_singleton, Set.mem_insert_iff, Set.mem_singleton_iff]
    omega
  have := Set.ncard_le_ncard hsub (Finset.finite_toSet _)
  rw [Set.ncard_coe_finset] at this
  have := this.trans Finset.card_le_two
  omega

/-- Accuracy without tolerance. -/
theorem center_exact {nd : Node} (hreg : Regular nd) (hb : nd.refBins ≠ 0) (hd : nd.data ≠ []) {l : Line} (b : Best nd l) {s pos : ℝ}
    (hs : s = 1 ∨ s = -1) (hc : Correlated nd s pos 0) : |nd.offsetCenter l - pos| ≤ 3 / 4 * nd.resolution := by
  have hS := full_support hreg hb b hs hc
  have hn : 0 < nd.data.length := List.length_pos_iff.mpr hd
  have h0 := near_pos hreg b hc (i := 0) (by rw [hS]; exact hn)
  have h1 := near_pos hreg b hc (i := nd.data.length - 1) (by rw [hS]; simp only [Set.mem_Iio]; omega)
  have hcast : ((nd.data.length - 1 : ℕ) : ℝ) = nd.data.length - 1 := by
    rw [Nat.cast_sub (by omega)]
    simp
  rw [hcast] at h1
  rw [abs_le] at h0 h1 ⊢
  push_cast at h0
  constructor <;> nlinarith [h0.1, h0.2, h1.1, h1.2]

theorem slope_exact {nd : Node} (hreg : Regular nd) (hb : nd.refBins ≠ 0) (hn : 2 ≤ nd.data.length) {l : Line} (b : Best nd l) {s pos : ℝ}
    (hs : s = 1 ∨ s = -1) (hc : Correlated nd s pos 0) : |l.slope - s| ≤ 1 / 10 := by
  have hS := full_support hreg hb b hs hc
  have h0 := near_pos hreg b hc (i := 0) (by rw [hS]; simp only [Set.mem_Iio]; omega)
  have h1 := near_pos hreg b hc (i := 1) (by rw [hS]; simp only [Set.mem_Iio]; omega)
  have hbp := hreg.res
  rw [abs_le] at h0 h1
  push_cast at h0 h1
  have hd1 : (l.slope - s) * nd.resolution ≤ 3 / 2 * nd.resolution := by linarith [h0.1, h1.2]
  have hd2 : -(3 / 2 * nd.resolution) ≤ (l.slope - s) * nd.resolution := by linarith [h0.2, h1.1]
  have d1 : l.slope - s ≤ 3 / 2 := le_of_mul_le_mul_right hd1 hbp
  have d2 : -(3 / 2) ≤ l.slope - s := by
    apply le_of_mul_le_mul_right _ hbp
    linarith
  rcases hs with rfl | rfl
  · rcases b.proper with h | h
    · exact h
    · rw [abs_le] at h; linarith [h.1, h.2]
  · rcases b.proper with h | h
    · rw [abs_le] at h; linarith [h.1, h.2]
    · rw [sub_neg_eq_add]; exact h

theorem slope_tol {nd : Node} (hreg : Regular nd) (hb : nd.refBins ≠ 0) (hn : 5 ≤ nd.data.length) {l : Line} (b : Best nd l) {s pos tol : ℝ}
    (hs : s = 1 ∨ s = -1) (hc : Correlated nd s pos tol) (htol : tol ≤ nd.resolution / 2) : |l.slope - s| ≤ 1 / 10 := by
  have hS := half_support hreg hb b hs hc htol
  obtain ⟨i, hi, k, hk, hik⟩ := three_apart _ (show 3 ≤ (supportSet nd b.theta b.rho).ncard by omega)
  have h0 := near_pos hreg b hc hi
  have h1 := near_pos hreg b hc hk
  have hbp := hreg.res
  have hik' : (i : ℝ) + 2 ≤ k := by exact_mod_cast hik
  rw [abs_le] at h0 h1
  have hd1 : (l.slope - s) * nd.resolution * (k - i) ≤ 5 / 2 * nd.resolution := by linarith [h0.1, h1.2]
  have hd2 : -(5 / 2 * nd.resolution) ≤ (l.slope - s) * nd.resolution * (k - i) := by linarith [h0.2, h1.1]
  have e : (l.slope - s) * nd.resolution * (k - i) = (l.slope - s) * (k - i) * nd.resolution := by ring
  rw [e] at hd1 hd2
  have d1 : (l.slope - s) * (k - i) ≤ 5 / 2 := le_of_mul_le_mul_right hd1 hbp
  have d2 : -(5 / 2) ≤ (l.slope - s) * (k - i) := by
    apply le_of_mul_le_mul_right _ hbp
    linarith
  rcases hs with rfl | rfl
  · rcases b.proper with h | h
    · exact h
    · rw [abs_le] at h; nlinarith [h.1, h.2]
  · rcases b.proper with h | h
    · rw [abs_le] at h; nlinarith [h.1, h.2]
    · rw [sub_neg_eq_add]; exact h

/-- Accuracy with a tolerance of half a bin. -/
theorem center_tol {nd : Node} (hreg : Regular nd) (hb : nd.refBins ≠ 0) (hn : 5 ≤ nd.data.length) {l : Line} (b : Best nd l) {s pos tol : ℝ}
    (hs : s = 1 ∨ s = -1) (hc : Correlated nd s pos tol) (htol : tol ≤ nd.resolution / 2) :
    |nd.offsetCenter l - pos| ≤ 4 / 5 * nd.resolution + tol := by
  have hsl := slope_tol hreg hb hn b hs hc htol
  have hS := half_support hreg hb b hs hc htol
  obtain ⟨⟨i, hi, hi2⟩, k, hk, hk2⟩ := half_sides _ _ (supportSet_sub nd b.theta b.rho) (by omega) hS
  have h0 := near_pos hreg b hc hi
  have h1 := near_pos hreg b hc hk
  have hbp := hreg.res
  have hi' : (i : ℝ) - ((nd.data.length : ℝ) - 1) / 2 ≤ 1 / 2 := by
    have : (2 : ℝ) * i ≤ nd.data.length := by exact_mod_cast hi2
    linarith
  have hk' : -(1 / 2) ≤ (k : ℝ) - ((nd.data.length : ℝ) - 1) / 2 := by
    have : (nd.data.length : ℝ) ≤ 2 * k + 2 := by exact_mod_cast hk2
    linarith
  generalize (i : ℝ) - ((nd.data.length : ℝ) - 1) / 2 = u at h0 hi'
  generalize (k : ℝ) - ((nd.data.length : ℝ) - 1) / 2 = w at h1 hk'
  generalize nd.offsetCenter l - pos = a at h0 h1 ⊢
  have hg : |(l.slope - s) * nd.resolution| ≤ 1 / 10 * nd.resolution := by
    rw [abs_mul, abs_of_pos hbp]
    exact mul_le_mul_of_nonneg_right hsl hbp.le
  generalize (l.slope - s) * nd.resolution = g at h0 h1 hg
  generalize nd.resolution = r at *
  have close : ∀ u : ℝ, |u| ≤ 1 / 2 → |g * u + a| ≤ 3 / 4 * r + tol → |a| ≤ 4 / 5 * r + tol := by
    intro u hu h
    have hgu : |g * u| ≤ 1 / 20 * r := by
      rw [abs_mul]
      calc |g| * |u| ≤ (1 / 10 * r) * (1 / 2) := mul_le_mul hg hu (abs_nonneg _) (by linarith)
        _ = 1 / 20 * r := by ring
    have : a = (g * u + a) - g * u := by ring
    rw [this]
    refine (abs_sub _ _).trans ?_
    linarith
  by_cases hu : -(1 / 2) ≤ u
  · exact close u (abs_le.mpr ⟨hu, hi'⟩) h0
  by_cases hw : w ≤ 1 / 2
  · exact close w (abs_le.mpr ⟨hk', hw⟩) h1
  rw [not_le] at hu hw
  rw [abs_le] at h0 h1 ⊢
  constructor
  · by_contra hlt
    rw [not_le] at hlt
    have a1 : 0 < g * u := by nlinarith [h0.1]
    have a2 : 0 < g * w := by nlinarith [h1.1]
    have : g < 0 := by nlinarith
    nlinarith
  · by_contra hlt
    rw [not_le] at hlt
    have a1 : g * u < 0 := by nlinarith [h0.2]
    have a2 : g * w < 0 := by nlinarith [h1.2]
    have : 0 < g := by nlinarith
    nlinarith

/-! ### One axis -/

theorem fitAxis_ok {env : Env} {nd : Node} {ps : ℝ} {f : Fit} (h : fitAxis env nd ps = .ok f) :
    ∃ l, nd.line env = .ok l ∧ f.slope = l.slope ∧ f.offsetCenter = nd.offsetCenter l ∧
      posLimit env nd.dutPos (nd.inliers l ps) = .ok f.limit := by
  unfold fitAxis at h
  split at h
  · exact absurd h (by simp)
  · rename_i l hl
    split at h
    · exact absurd h (by simp)
    · rename_i lim hlim
      have := Except.ok.inj h
      subst this
      exact ⟨l, hl, rfl, rfl, hlim⟩

theorem dutPos_length (nd : Node) : nd.dutPos.length = nd.data.length := by simp [Node.dutPos, linspace]

theorem dutPos_get {nd : Node} (hreg : Regular nd) (i : Nat) (h : i < nd.dutPos.length) : nd.dutPos[i] = dutCentre nd i := by
  have hl := dutPos_length nd
  simp only [Node.dutPos, linspace, List.getElem_map, List.getElem_range]
  have hx : nd.dutExtent.2 = nd.dutExtent.1 + nd.data.length * nd.resolution := by linarith [hreg.extent]
  unfold dutCentre
  rcases Nat.eq_zero_or_pos i with rfl | hi
  · push_cast
    ring
  · have hn : (nd.data.length : ℝ) - 1 ≠ 0 := by
      have : (2 : ℝ) ≤ nd.data.length := by exact_mod_cast (by omega : 2 ≤ nd.data.length)
      linarith
    rw [hx]
    have : (nd.dutExtent.1 + nd.data.length * nd.resolution - nd.resolution / 2 - (nd.dutExtent.1 + nd.resolution / 2))
        / ((nd.data.length : ℝ) - 1) = nd.resolution := by
      rw [div_eq_iff hn]
      ring
    rw [this]
    ring

theorem mem_points {nd : Node} (hreg : Regular nd) (p : ℝ × ℝ) : p ∈ nd.points ↔
    ∃ i, ∃ h : i < nd.data.length, argmax nd.data[i] ≠ 0 ∧ p = (dutCentre nd i, refCentre nd (argmax nd.data[i]) - refMiddle nd) := by
  have hl := dutPos_length nd
  have e : ∀ m : Nat, (m : ℝ) * nd.resolution - (nd.refExtent.2 - nd.refExtent.1) / 2 + nd.resolution / 2 = refCentre nd m - refMiddle nd := by
    intro m
    unfold refCentre refMiddle
    ring
  have hz : ∀ i (h : i < nd.data.length), (nd.dutPos.zip nd.maxSelect)[i]? = some (dutCentre nd i, argmax nd.data[i]) := by
    intro i h
    rw [List.getElem?_eq_getElem (by simp [Node.maxSelect, hl, h]), List.getElem_zip, dutPos_get hreg]
    simp [Node.maxSelect]
  have hzl : (nd.dutPos.zip nd.maxSelect).length = nd.data.length := by simp [Node.maxSelect, hl]
  unfold Node.points
  simp only [List.mem_map, List.mem_filter]
  constructor
  · rintro ⟨q, ⟨hq, h0⟩, rfl⟩
    obtain ⟨i, hi, rfl⟩ := List.getElem_of_mem hq
    have hi' : i < nd.data.length := by rwa [hzl] at hi
    have := hz i hi'
    rw [List.getElem?_eq_getElem hi] at this
    have := Option.some.inj this
    rw [this] at h0 ⊢
    exact ⟨i, hi', by simpa using h0, by rw [e]⟩
  · rintro ⟨i, hi, h0, rfl⟩
    refine ⟨(dutCentre nd i, argmax nd.data[i]), ⟨List.mem_of_getElem? (hz i hi), by simpa using h0⟩, ?_⟩
    rw [e]

theorem headD_get (l : List ℝ) (h : 0 < l.length) : l.headD 0 = l[0] := by
  cases l with
  | nil => simp at h
  | cons a b => rfl

theorem mem_inliers {nd : Node} (hreg : Regular nd) (hd : nd.data ≠ []) (l : Line) (ps x : ℝ) : x ∈ nd.inliers l ps ↔
    ∃ i, ∃ h : i < nd.data.length, argmax nd.data[i] ≠ 0 ∧ x = dutCentre nd i ∧
      |nd.resolution * (l.slope * i + l.offset - (argmax nd.data[i] : ℕ)) + refMiddle nd| < ps * Real.sqrt 12 * 2 := by
  classical
  have hpos : 0 < nd.dutPos.length := by rw [dutPos_length]; exact List.length_pos_iff.mpr hd
  have hhead : nd.dutPos.headD 0 = dutCentre nd 0 := by
    rw [← dutPos_get hreg 0 hpos]
    exact headD_get _ hpos
  have e : ∀ i m : Nat, l.slope * dutCentre nd i + nd.offsetPlot l - (refCentre nd m - refMiddle nd)
      = nd.resolution * (l.slope * i + l.offset - m) + refMiddle nd := by
    intro i m
    unfold Node.offsetPlot Node.offset refCentre
    rw [hhead]
    unfold dutCentre
    push_cast
    ring
  unfold Node.inliers findInliers
  simp only [List.mem_map, List.mem_filter, decide_eq_true_eq]
  constructor
  · rintro ⟨p, ⟨hp, hd⟩, rfl⟩
    obtain ⟨i, hi, h0, rfl⟩ := (mem_points hreg p).mp hp
    dsimp only at hd
    rw [e] at hd
    exact ⟨i, hi, h0, rfl, hd⟩
  · rintro ⟨i, hi, h0, rfl, hd⟩
    refine ⟨(dutCentre nd i, refCentre nd (argmax nd.data[i]) - refMiddle nd), ⟨(mem_points hreg _).mpr ⟨i, hi, h0, rfl⟩, ?_⟩, rfl⟩
    dsimp only
    rw [e]
    exact hd

theorem inliers_few {env : Env} {pos xs : List ℝ} (h : xs = []) : posLimit env pos xs = .error .tooFewPoints := by
  rw [h]
  rfl

theorem foldl_max_mem : ∀ (l : List ℝ) (a : ℝ), l.foldl max a ∈ a :: l ∧ ∀ x ∈ a :: l, x ≤ l.foldl max a := by
  intro l
  induction l with
  | nil => intro a; simp
  | cons b l ih =>
    intro a
    obtain ⟨h1, h2⟩ := ih (max a b)
    simp only [List.foldl_cons]
    constructor
    · rcases List.mem_cons.mp h1 with h | h
      · rw [h]
        rcases max_choice a b with h' | h' <;> rw [h'] <;> simp
      · simp [h]
    · intro x hx
      rcases List.mem_cons.mp hx with rfl | hx
      · exact (le_max_left _ _).trans (h2 _ List.mem_cons_self)
      · rcases List.mem_cons.mp hx with rfl | hx
        · exact (le_max_right _ _).trans (h2 _ List.mem_cons_self)
        · exact h2 x (List.mem_cons_of_mem _ hx)

theorem foldl_min_mem : ∀ (l : List ℝ) (a : ℝ), l.foldl min a ∈ a :: l ∧ ∀ x ∈ a :: l, l.foldl min a ≤ x := by
  intro l
  induction l with
  | nil => intro a; simp
  | cons b l ih =>
    intro a
    obtain ⟨h1, h2⟩ := ih (min a b)
    simp only [List.foldl_cons]
    constructor
    · rcases List.mem_cons.mp h1 with h | h
      · rw [h]
        rcases min_choice a b with h' | h' <;> rw [h'] <;> simp
      · simp [h]
    · intro x hx
      rcases List.mem_cons.mp hx with rfl | hx
      · exact (h2 _ List.mem_cons_self).trans (min_le_left _ _)
      · rcases List.mem_cons.mp hx with rfl | hx
        · exact (h2 _ List.mem_cons_self).trans (min_le_right _ _)
        · exact h2 x (List.mem_cons_of_mem _ hx)

theorem minMax_some {l : List ℝ} {m : ℝ × ℝ} (h : minMax l = some m) : m.1 ∈ l ∧ m.2 ∈ l ∧ ∀ x ∈ l, m.1 ≤ x ∧ x ≤ m.2 := by
  cases l with
  | nil => simp [minMax] at h
  | cons a l =>
    have := Option.some.inj h
    subst this
    exact ⟨(foldl_min_mem l a).1, (foldl_max_mem l a).1, fun x hx => ⟨(foldl_min_mem l a).2 x hx, (foldl_max_mem l a).2 x hx⟩⟩

theorem minMax_ne {l : List ℝ} (h : l ≠ []) : ∃ m, minMax l = some m := by
  cases l with
  | nil => exact absurd rfl h
  | cons a l => exact ⟨_, rfl⟩

/-- With a positive density there is a range. -/
theorem dense_ne (env : Env) (pos xs : List ℝ) (hp : pos ≠ []) (hd : ∀ x ∈ pos, 0 < env.density xs x) : dense env pos xs ≠ [] := by
  classical
  cases pos with
  | nil => exact absurd rfl hp
  | cons a pos =>
    have h1 := (foldl_max_mem (pos.map (env.density xs)) (env.density xs a)).1
    rw [← List.map_cons, List.mem_map] at h1
    obtain ⟨x, hx, he⟩ := h1
    intro h0
    have : x ∈ dense env (a :: pos) xs := by
      unfold dense
      rw [List.mem_filter]
      refine ⟨hx, ?_⟩
      simp only [decide_eq_true_eq, List.map_cons, List.tail_cons, List.headD_cons]
      rw [← he]
      have := hd x hx
      linarith
    rw [h0] at this
    exact absurd this (by simp)

/-! ### One DUT -/

theorem allPixels_mem (d : Pixels ℝ) (p : ℝ × ℝ) : p ∈ allPixels d ↔
    ∃ c r : Nat, 1 ≤ c ∧ c ≤ d.nColumns ∧ 1 ≤ r ∧ r ≤ d.nRows ∧ p = ((c : ℝ), (r : ℝ)) := by
  simp only [allPixels, List.mem_flatMap, List.mem_range, List.mem_map]
  constructor
  · rintro ⟨c, hc, r, hr, rfl⟩
    exact ⟨c + 1, r + 1, by omega, by omega, by omega, by omega, by push_cast; rfl⟩
  · rintro ⟨c, r, h1, h2, h3, h4, rfl⟩
    refine ⟨c - 1, by omega, r - 1, by omega, ?_⟩
    rw [Nat.cast_sub h1, Nat.cast_sub h3]
    push_cast
    congr 1 <;> ring

/-- Local position for an index. -/
noncomputable def localOf (d : Pixels ℝ) (p : ℝ × ℝ) : Vec3 :=
  ![d.columnSize * (p.1 - ((d.nColumns : ℝ) + 1) / 2), d.rowSize * (p.2 - ((d.nRows : ℝ) + 1) / 2), 0]

/-- Global position for an index. -/
noncomputable def globalOf (d : Pixels ℝ) (a : Alignment) (p : ℝ × ℝ) : Vec3 :=
  (rotationMatrix a.alpha a.beta a.gamma).mulVec (localOf d p) + ![a.x, a.y, a.z]

theorem local_global (d : Pixels ℝ) (a : Alignment) (l : List (ℝ × ℝ)) :
    localToGlobal a {} (l.map (localOf d)) = .ok (l.map (globalOf d a)) := by
  have hok : ∃ out, localToGlobal a {} (l.map (localOf d)) = .ok out := by
    cases h : localToGlobal a {} (l.map (localOf d)) with
    | ok out => exact ⟨out, rfl⟩
    | error e =>
      obtain ⟨-, -, p, hp, h2⟩ := (BTA.Props.C30_error_iff _ _ _ _).mp h
      obtain ⟨q, -, rfl⟩ := List.mem_map.mp hp
      simp [localOf] at h2
      norm_num at h2
  obtain ⟨out, ho⟩ := hok
  rw [ho, BTA.Props.C30_formula _ _ _ _ ho, List.map_map]
  rfl

theorem indexToGlobal_all (d : Pixels ℝ) (a : Alignment) :
    indexToGlobal d a {} (allPixels d) = .ok ((allPixels d).map (globalOf d a)) := by
  have hok : ∃ out, indexToLocal d (allPixels d) = .ok out := by
    cases h : indexToLocal d (allPixels d) with
    | ok out => exact ⟨out, rfl⟩
    | error e =>
      obtain ⟨-, p, hp, h2⟩ := (BTA.Props.C34_index_error_iff _ _ _).mp h
      obtain ⟨c, r, h3, h4, h5, h6, rfl⟩ := (allPixels_mem d p).mp hp
      have e3 : (1 : ℝ) ≤ c := by exact_mod_cast h3
      have e4 : (c : ℝ) ≤ d.nColumns := by exact_mod_cast h4
      have e5 : (1 : ℝ) ≤ r := by exact_mod_cast h5
      have e6 : (r : ℝ) ≤ d.nRows := by exact_mod_cast h6
      rcases h2 with h2 | h2 | h2 | h2 <;> dsimp only at h2 <;> linarith
  obtain ⟨out, ho⟩ := hok
  unfold indexToGlobal
  rw [ho]
  dsimp only
  rw [BTA.Props.C34_position _ _ _ ho, List.map_map]
  exact local_global d a (allPixels d)

/-- The pixels in the range of the correlation. -/
noncomputable def inside (d : PDut) (fx fy : Fit) : List (ℝ × ℝ) :=
  (allPixels d.pixels).filter fun p => inRange fx.limit fy.limit (globalOf d.pixels d.align p)

theorem globalToLocal_inside (d : PDut) (fx fy : Fit) :
    globalToLocal d.align {} (((allPixels d.pixels).map (globalOf d.pixels d.align)).filter (inRange fx.limit fy.limit))
      = .ok ((inside d fx fy).map (localOf d.pixels)) := by
  rw [List.filter_map]
  exact BTA.Props.C30_there_and_back _ _ _ _ (local_global _ _ _)

theorem setDut_ok_iff (d d' : PDut) (fx fy : Fit) :
    setDut d ((allPixels d.pixels).map (globalOf d.pixels d.align)) fx fy = .ok d' ↔
      ∃ mx my alpha beta gamma, minMax ((inside d fx fy).map fun p => localOf d.pixels p 0) = some mx ∧
        minMax ((inside d fx fy).map fun p => localOf d.pixels p 1) = some my ∧
        eulerAngles (newRotation d.align fx.slope fy.slope) = .angles alpha beta gamma ∧
        d' = ⟨d.pixels, ⟨fx.offsetCenter, fy.offsetCenter, d.align.z, alpha, beta, gamma⟩, some (newLimit d.xLimit mx),
          some (newLimit d.yLimit my)⟩ := by
  unfold setDut
  rw [globalToLocal_inside]
  simp only [List.map_map, Function.comp_def]
  constructor
  · intro h
    split at h
    · rename_i mx my hx hy
      split at h
      · rename_i alpha beta gamma he
        exact ⟨mx, my, alpha, beta, gamma, hx, hy, he, (Except.ok.inj h).symm⟩
      · exact absurd h (by simp)
    · exact absurd h (by simp)
  · rintro ⟨mx, my, alpha, beta, gamma, hx, hy, he, rfl⟩
    rw [hx, hy, he]

theorem prealignDut_ok_iff (env : Env) (file : File) (i : Nat) (refOk : Bool) (d d' : PDut) :
    prealignDut env file refOk i d = .ok d' ↔ refOk = true ∧
      ∃ nx ny fx fy, file i true = some nx ∧ file i false = some ny ∧ fitAxis env nx d.pixels.columnSize = .ok fx ∧
        fitAxis env ny d.pixels.rowSize = .ok fy ∧
        setDut d ((allPixels d.pixels).map (globalOf d.pixels d.align)) fx fy = .ok d' := by
  unfold prealignDut
  rw [indexToGlobal_all]
  dsimp only
  constructor
  · intro h
    split at h
    · exact absurd h (by simp)
    · rename_i nx hnx
      split at h
      · exact absurd h (by simp)
      · rename_i hr
        split at h
        · exact absurd h (by simp)
        · rename_i fx hfx
          split at h
          · exact absurd h (by simp)
          · rename_i ny hny
            split at h
            · exact absurd h (by simp)
            · rename_i fy hfy
              exact ⟨by simpa using hr, nx, ny, fx, fy, hnx, hny, hfx, hfy, h⟩
  · rintro ⟨hr, nx, ny, fx, fy, h1, h2, h3, h4, h5⟩
    rw [h1]
    dsimp only
    rw [hr, if_neg (by simp), h3, h2]
    dsimp only
    rw [h4]
    exact h5

/-! ### All DUTs -/

theorem selected_mem (n ref : Nat) (sel : Option (List Nat)) (i : Nat) : i ∈ selected n ref sel ↔ Aligned n ref sel i := by
  cases sel <;> simp [selected, Aligned, and_comm]

theorem selected_nodup (n ref : Nat) (sel : Option (List Nat)) : (selected n ref sel).Nodup :=
  (List.nodup_dedup _).filter _

theorem dutLoop_ok_iff (env : Env) (file : File) (refOk : Bool) : ∀ (is : List Nat), is.Nodup → ∀ tel tel' : List PDut,
    dutLoop env file refOk is tel = .ok tel' ↔ tel'.length = tel.length ∧
      (∀ k ∈ is, ∃ d d', tel[k]? = some d ∧ prealignDut env file refOk k d = .ok d' ∧ tel'[k]? = some d') ∧
      ∀ k, k ∉ is → tel'[k]? = tel[k]? := by
  intro is
  induction is with
  | nil =>
    intro _ tel tel'
    simp only [dutLoop]
    constructor
    · intro h
      have := Except.ok.inj h
      subst this
      simp
    · rintro ⟨-, -, h⟩
      rw [List.ext_getElem? fun k => (h k (by simp)).symm]
  | cons i is ih =>
    intro hnd tel tel'
    rw [List.nodup_cons] at hnd
    simp only [dutLoop]
    constructor
    · intro h
      split at h
      · exact absurd h (by simp)
      rename_i d hd
      split at h
      · exact absurd h (by simp)
      rename_i d' hd'
      obtain ⟨h1, h2, h3⟩ := (ih hnd.2 _ _).mp h
      have hi : i < tel.length := (List.getElem?_eq_some_iff.mp hd).1
      refine ⟨by simpa using h1, fun k hk => ?_, fun k hk => ?_⟩
      · rcases List.mem_cons.mp hk with rfl | hk
        · refine ⟨d, d', hd, hd', ?_⟩
          rw [h3 k hnd.1, List.getElem?_set_self hi]
        · obtain ⟨e, e', he, he', het⟩ := h2 k hk
          have hne : i ≠ k := by rintro rfl; exact hnd.1 hk
          rw [List.getElem?_set_ne hne] at he
          exact ⟨e, e', he, he', het⟩
      · have hne : i ≠ k := by rintro rfl; exact hk List.mem_cons_self
        rw [h3 k (fun h' => hk (List.mem_cons_of_mem _ h')), List.getElem?_set_ne hne]
    · rintro ⟨h1, h2, h3⟩
      obtain ⟨d, d', hd, hd', ht⟩ := h2 i List.mem_cons_self
      have hi : i < tel.length := (List.getElem?_eq_some_iff.mp hd).1
      rw [hd]
      dsimp only
      rw [hd']
      dsimp only
      rw [ih hnd.2]
      refine ⟨by simpa using h1, fun k hk => ?_, fun k hk => ?_⟩
      · obtain ⟨e, e', he, he', het⟩ := h2 k (List.mem_cons_of_mem _ hk)
        have hne : i ≠ k := by rintro rfl; exact hnd.1 hk
        exact ⟨e, e', by rw [List.getElem?_set_ne hne]; exact he, he', het⟩
      · by_cases hki : k = i
        · subst hki
          rw [List.getElem?_set_self hi, ht]
        · rw [List.getElem?_set_ne (fun h' => hki h'.symm), h3 k]
          intro h'
          rcases List.mem_cons.mp h' with h' | h'
          · exact hki h'
          · exact hk h'

theorem prealign_ok_iff (env : Env) (file : File) (tel tel' : List PDut) (same : Bool) (sel : Option (List Nat)) (ref : Nat) :
    prealign env file tel same sel ref = .ok tel' ↔ same = false ∧ tel'.length = tel.length ∧
      (∀ k, Aligned tel.length ref sel k → ∃ d d', tel[k]? = some d ∧
        prealignDut env file (decide (ref < tel.length)) k d = .ok d' ∧ tel'[k]? = some d') ∧
      ∀ k, ¬ Aligned tel.length ref sel k → tel'[k]? = tel[k]? := by
  unfold prealign
  cases same with
  | true => simp
  | false =>
    simp only [Bool.false_eq_true, if_false, true_and]
    rw [dutLoop_ok_iff _ _ _ _ (selected_nodup _ _ _)]
    simp only [selected_mem]

/-- There is a line for every histogram with two bins of the DUT. -/
theorem line_exists (env : Env) (hs : Sorts env) (nd : Node) (hreg : Regular nd) (hn : 2 ≤ nd.data.length) (hb : nd.refBins ≠ 0) :
    ∃ l, nd.line env = .ok l := by
  cases h : nd.line env with
  | ok l => exact ⟨l, rfl⟩
  | error e =>
    exfalso
    have hne : ¬ ((nd.data.isEmpty || nd.refBins == 0) = true) := by
      rw [Bool.or_eq_true, not_or]
      refine ⟨?_, by simpa using hb⟩
      rw [List.isEmpty_iff]
      intro h0
      rw [h0] at hn
      simp at hn
    have hq : ¬ ((hough nd.image (1 / 10) 1).rhos.length ≤ 1) := by
      have e : (hough nd.image (1 / 10) 1).rhos.length = 2 * halfRhos nd.image.rows nd.image.cols 1 + 1 := rhos_length _ _
      rw [e]
      have : 0 < halfRhos nd.image.rows nd.image.cols 1 := by
        unfold halfRhos
        rw [Nat.ceil_pos, div_one]
        apply Real.sqrt_pos.mpr
        have : (2 : ℝ) ≤ nd.image.cols := by exact_mod_cast hn
        nlinarith [sq_nonneg ((nd.image.rows : ℝ) - 1)]
      omega
    have h' := h
    unfold Node.line at h
    rw [if_neg hne, if_neg hq] at h
    have := (findLine_error _ _ _ h).1
    rw [this] at h'
    exact line_never env hs nd hreg h'

/-- Two inliers and a positive density are sufficient. -/
theorem fitAxis_exists {env : Env} {nd : Node} {l : Line} {ps : ℝ} (hl : nd.line env = .ok l) (hd : nd.data ≠ [])
    (hdens : ∀ xs x, 0 < env.density xs x) {x y : ℝ} (hx : x ∈ nd.inliers l ps) (hy : y ∈ nd.inliers l ps) (hne : x ≠ y) :
    ∃ f, fitAxis env nd ps = .ok f ∧ f.slope = l.slope ∧ f.offsetCenter = nd.offsetCenter l := by
  have h2 : ¬ (nd.inliers l ps).length ≤ 1 := by
    intro h
    cases hi : nd.inliers l ps with
    | nil => rw [hi] at hx; simp at hx
    | cons a rest =>
      cases rest with
      | nil =>
        rw [hi] at hx hy
        simp only [List.mem_singleton] at hx hy
        exact hne (hx.trans hy.symm)
      | cons b rest => rw [hi] at h; simp at h
  have hp : nd.dutPos ≠ [] := by
    intro h0
    have := dutPos_length nd
    rw [h0] at this
    exact hd (List.length_eq_zero_iff.mp this.symm)
  obtain ⟨lim, hlim⟩ := minMax_ne (dense_ne env nd.dutPos (nd.inliers l ps) hp fun x _ => hdens _ x)
  refine ⟨⟨l.slope, nd.offsetCenter l, lim⟩, ?_, rfl, rfl⟩
  unfold fitAxis
  rw [hl]
  dsimp only
  have : posLimit env nd.dutPos (nd.inliers l ps) = .ok lim := by
    unfold posLimit
    rw [if_neg h2, hlim]
  rw [this]

end BTA.Prealign
