import Verif.Spec.ResidualPlot
import Verif.Props.AngleFile
/-
C235: the plots of the residuals.
-/
namespace BTA.ResidualPlot.Props
open BTA.HistStat BTA.AngleFile BTA.ResidualPlot BTA.Spec

theorem foldl_max_le (l : List Nat) : ∀ a : Nat, a ≤ l.foldl max a ∧ ∀ n ∈ l, n ≤ l.foldl max a := by
  induction l with
  | nil => intro a; simp
  | cons b l ih =>
    intro a
    obtain ⟨h1, h2⟩ := ih (max a b)
    rw [List.foldl_cons]
    refine ⟨by omega, fun n hn => ?_⟩
    rcases List.mem_cons.mp hn with rfl | hn
    · omega
    · exact h2 n hn

theorem logTop_ge (hist : List Nat) (n : Nat) (hn : n ∈ hist) : n ≤ logTop hist := by
  have h := (foldl_max_le hist 0).2 n hn
  unfold logTop
  generalize hist.foldl max 0 = m at h
  have h1 : ((m : ℚ) / 10) ≤ ⌈(m : ℚ) / 10⌉ := Int.le_ceil _
  have h0 : 0 ≤ ⌈(m : ℚ) / 10⌉ := Int.ceil_nonneg (by positivity)
  have h2 : ((⌈(m : ℚ) / 10⌉.toNat : ℤ) : ℚ) = ⌈(m : ℚ) / 10⌉ := by rw [Int.toNat_of_nonneg h0]
  have h3 : (m : ℚ) ≤ (⌈(m : ℚ) / 10⌉.toNat * 100 : Nat) := by
    push_cast
    rw [Int.cast_natCast] at h2
    rw [h2]
    have : (0 : ℚ) ≤ ⌈(m : ℚ) / 10⌉ := by exact_mod_cast h0
    linarith
  have h4 : m ≤ ⌈(m : ℚ) / 10⌉.toNat * 100 := by exact_mod_cast h3
  omega

theorem page_ok (hist : List Nat) (edges : List ℝ) (fit : Option Fit) (log : Bool) (hlen : edges.length = hist.length + 1) (hs : edges.Pairwise (· ≤ ·))
    (hne : hist.sum ≠ 0) : ∃ p, page hist edges fit log = .ok p ∧ p.log = log ∧ ShowsHist hist edges p ∧
      (∀ f, fit = some f → f.any = true → ShowsFit f p) ∧ (fit = none → p.line = none ∧ p.curve = none) := by
  obtain ⟨a, es, rfl⟩ := List.exists_cons_of_length_pos (l := edges) (by omega)
  have hl : (a :: es).getLast? = some ((a :: es).getLast (by simp)) := List.getLast?_eq_some_getLast (by simp)
  unfold page meanFromHist
  rw [if_neg hne, hl]
  simp only [List.head?_cons]
  refine ⟨_, rfl, rfl, ⟨⟨?_, ?_⟩, ?_, rfl, ?_, ?_⟩, ?_, ?_⟩
  · rw [centres_length, hlen]; rfl
  · rw [BTA.AngleFile.Props.widths_length, hlen]; rfl
  · intro i lo hi hlo hhi
    refine ⟨(hi + lo) / 2, hi - lo, (centres_get _ i _).mpr ⟨lo, hi, hlo, hhi, rfl⟩, BTA.AngleFile.Props.widths_get _ i lo hi hlo hhi, by ring, by ring⟩
  · intro x hx
    constructor
    · rcases List.mem_cons.mp hx with rfl | hx
      · exact le_refl _
      · exact (List.pairwise_cons.mp hs).1 x hx
    · rw [← List.dropLast_concat_getLast (l := a :: es) (by simp)] at hx hs
      rcases List.mem_append.mp hx with hx | hx
      · exact (List.pairwise_append.mp hs).2.2 x hx _ (by simp)
      · rw [List.mem_singleton.mp hx]
  · intro hlog
    simp only at hlog
    rw [hlog]
    exact ⟨1, logTop hist, rfl, fun n hn h0 => ⟨by omega, logTop_ge hist n hn⟩⟩
  · rintro f rfl hf
    cases f with
    | gauss A mu sigma => simp only [Option.bind_some, hf, if_true, Option.map_some]; exact ⟨rfl, rfl⟩
    | box A mu sigma w => simp only [Option.bind_some, hf, if_true, Option.map_some]; exact ⟨rfl, rfl⟩
  · rintro rfl
    exact ⟨rfl, rfl⟩

/-- C235: both pages of a residual histogram (linear and logarithmic) show all of its bins with their entries, and the fit.
What is missing for the full statement: `C235_empty_fails`. -/
theorem C235_pages_partial (hist : List Nat) (edges : List ℝ) (fit : Option Fit) (hlen : edges.length = hist.length + 1) (hs : edges.Pairwise (· ≤ ·))
    (hne : ∃ n ∈ hist, n ≠ 0) : ∃ p q, plotResiduals hist edges fit = .ok [p, q] ∧ p.log = false ∧ q.log = true ∧ ∀ r ∈ [p, q], ShowsHist hist edges r ∧
      (∀ f, fit = some f → f.any = true → ShowsFit f r) ∧ (fit = none → r.line = none ∧ r.curve = none) := by
  have hsum : hist.sum ≠ 0 := fun h => by
    obtain ⟨n, hn, h0⟩ := hne
    exact h0 (List.sum_eq_zero_iff_forall_eq_nat.mp h n hn)
  obtain ⟨p, h1, h2, h3, h4⟩ := page_ok hist edges fit false hlen hs hsum
  obtain ⟨q, k1, k2, k3, k4⟩ := page_ok hist edges fit true hlen hs hsum
  unfold plotResiduals
  rw [h1, k1]
  refine ⟨p, q, rfl, h2, k2, fun r hr => ?_⟩
  simp only [List.mem_cons, List.not_mem_nil, or_false] at hr
  rcases hr with rfl | rfl
  · exact ⟨h3, h4⟩
  · exact ⟨k3, k4⟩

example : ([0, 1, 2, 3] : List ℝ).length = ([4, 0, 12] : List Nat).length + 1 ∧ ([0, 1, 2, 3] : List ℝ).Pairwise (· ≤ ·) ∧ (∃ n ∈ [4, 0, 12], n ≠ 0) ∧
    (Fit.gauss 10 1 2).any = true := by
  refine ⟨rfl, ?_, ⟨4, by simp, by simp⟩, by simp [Fit.any]⟩
  simp only [List.pairwise_cons, List.mem_cons, List.not_mem_nil, or_false, List.Pairwise.nil, and_true]
  refine ⟨?_, ?_, ?_, ?_⟩ <;> intro x hx <;> (try rcases hx with rfl | rfl | rfl) <;> (try rcases hx with rfl | rfl) <;> (try subst hx) <;> norm_num at *

/-- C235 (negation): a histogram without entries is not shown; the plot raises an exception. -/
theorem C235_empty_fails (hist : List Nat) (edges : List ℝ) (fit : Option Fit) (h0 : ∀ n ∈ hist, n = 0) : plotResiduals hist edges fit = .error .limits := by
  have hsum : hist.sum = 0 := List.sum_eq_zero_iff_forall_eq_nat.mpr h0
  unfold plotResiduals page meanFromHist
  rw [if_pos hsum]

example : ∀ n ∈ [0, 0, 0], n = 0 := by simp

/-! ### Residuals for each position -/

theorem equal_start {n : Nat} {edges : List ℝ} (h : EqualBins n edges) (hn : n ≠ 0) (a b : ℝ) (ha : edges.head? = some a) (hb : edges.getLast? = some b) (i : Nat)
    (hi : i ≤ n) : edges[i]? = some (cellStart a b n i) := by
  obtain ⟨x, w, rfl⟩ := h
  have e : ∀ k, k ≤ n → ((List.range (n + 1)).map fun (i : Nat) => x + (i : ℝ) * w)[k]? = some (x + (k : ℝ) * w) := by
    intro k hk
    rw [List.getElem?_map, List.getElem?_range (by omega)]; rfl
  rw [List.head?_eq_getElem?, e 0 (by omega)] at ha
  rw [List.getLast?_eq_getElem?, List.length_map, List.length_range, e _ (by omega)] at hb
  rw [e i hi, ← Option.some.inj ha, ← Option.some.inj hb]
  unfold cellStart
  have : (n : ℝ) ≠ 0 := by exact_mod_cast hn
  simp only [Nat.add_sub_cancel]
  congr 1
  push_cast
  field_simp
  ring

/-- C235: the picture of the residuals for each position has one rectangle for each bin with entries, at the place of the bin; bins of the same size. -/
theorem C235_cells (hist : List (List Nat)) (m : Nat) (xedges yedges : List ℝ) (mean : List (Option ℝ)) (select : List Bool) (fit : Option (ℝ × ℝ))
    (limit : Option (Option ℝ × Option ℝ)) (hx : EqualBins hist.length xedges) (hy : EqualBins m yedges) (hm : ∀ row ∈ hist, row.length = m)
    (p : MapPage) (h : plotPosition hist xedges yedges mean select fit limit = .ok p) (c : Cell) :
    c ∈ p.cells ↔ c.count ≠ 0 ∧ ∃ i j, ShowsEntry hist xedges yedges i j c := by
  unfold plotPosition at h
  split at h
  · rename_i a b c0 d ha hb hc hd
    rw [← Except.ok.inj h]
    simp only [cells, List.mem_flatMap, List.mem_filterMap, List.mem_zipIdx_iff_getElem?]
    have hX : ∀ i row, hist[i]? = some row → xedges[i]? = some (cellStart a b hist.length i) ∧ xedges[i + 1]? = some (cellStart a b hist.length (i + 1)) := by
      intro i row hr
      have hlt := (List.getElem?_eq_some_iff.mp hr).1
      exact ⟨equal_start hx (by omega) a b ha hb i (by omega), equal_start hx (by omega) a b ha hb (i + 1) (by omega)⟩
    have hY : ∀ (i : Nat) row j n, hist[i]? = some row → row[j]? = some n → yedges[j]? = some (cellStart c0 d row.length j) ∧
        yedges[j + 1]? = some (cellStart c0 d row.length (j + 1)) := by
      intro i row j n hr hj
      have hlt := (List.getElem?_eq_some_iff.mp hj).1
      have hl := hm row (List.mem_of_getElem? hr)
      rw [hl] at hlt ⊢
      exact ⟨equal_start hy (by omega) c0 d hc hd j (by omega), equal_start hy (by omega) c0 d hc hd (j + 1) (by omega)⟩
    constructor
    · rintro ⟨⟨row, i⟩, hr, ⟨n, j⟩, hj, he⟩
      simp only at hr hj he
      by_cases h0 : n = 0
      · rw [if_pos h0] at he; cases he
      · rw [if_neg h0] at he
        rw [← Option.some.inj he]
        exact ⟨h0, i, j, (hX i row hr).1, (hX i row hr).2, (hY i row j n hr hj).1, (hY i row j n hr hj).2, row, hr, hj⟩
    · rintro ⟨h0, i, j, h1, h2, h3, h4, row, hr, hj⟩
      refine ⟨(row, i), hr, (c.count, j), hj, ?_⟩
      simp only
      rw [if_neg h0]
      rw [(hX i row hr).1] at h1
      rw [(hX i row hr).2] at h2
      rw [(hY i row j _ hr hj).1] at h3
      rw [(hY i row j _ hr hj).2] at h4
      rw [Option.some.inj h1, Option.some.inj h2, Option.some.inj h3, Option.some.inj h4]
  · cases h

theorem points_mem (xedges : List ℝ) (mean : List (Option ℝ)) (select : List Bool) (which : Bool) (x m : ℝ) :
    (x, m) ∈ points xedges mean select which ↔ ∃ (i : Nat) (lo hi : ℝ), xedges[i]? = some lo ∧ xedges[i + 1]? = some hi ∧ x = (hi + lo) / 2 ∧ mean[i]? = some (some m) ∧
      select[i]? = some which := by
  unfold points
  rw [List.mem_filterMap]
  simp only [List.mem_iff_getElem?, List.getElem?_zip_eq_some]
  constructor
  · rintro ⟨⟨x', m', s⟩, ⟨i, hx, hm, hs⟩, he⟩
    simp only at hx hm hs he
    by_cases hw : s = which
    · rw [if_pos hw] at he
      obtain ⟨y, rfl, hy⟩ := Option.map_eq_some_iff.mp he
      obtain ⟨rfl, rfl⟩ := Prod.mk.inj hy
      obtain ⟨lo, hi, h1, h2, h3⟩ := (centres_get xedges i _).mp hx
      exact ⟨i, lo, hi, h1, h2, h3, hm, by rw [hs, hw]⟩
    · rw [if_neg hw] at he; cases he
  · rintro ⟨i, lo, hi, h1, h2, h3, hm, hs⟩
    exact ⟨(x, some m, which), ⟨i, (centres_get xedges i x).mpr ⟨lo, hi, h1, h2, h3⟩, hm, hs⟩, by simp⟩

/-- C235: the points are the mean residuals at the centres of the bins: blue for the bins used for the straight line, red for the other ones (none for
bins without a mean); the straight line is the fit, the vertical lines are the finite limits. -/
theorem C235_points (hist : List (List Nat)) (xedges yedges : List ℝ) (mean : List (Option ℝ)) (select : List Bool) (fit : Option (ℝ × ℝ))
    (limit : Option (Option ℝ × Option ℝ)) (p : MapPage) (h : plotPosition hist xedges yedges mean select fit limit = .ok p) :
    (∀ x m, (x, m) ∈ p.blue ↔ ∃ (i : Nat) (lo hi : ℝ), xedges[i]? = some lo ∧ xedges[i + 1]? = some hi ∧ x = (hi + lo) / 2 ∧ mean[i]? = some (some m) ∧ select[i]? = some true) ∧
    (∀ x m, (x, m) ∈ p.red ↔ ∃ (i : Nat) (lo hi : ℝ), xedges[i]? = some lo ∧ xedges[i + 1]? = some hi ∧ x = (hi + lo) / 2 ∧ mean[i]? = some (some m) ∧ select[i]? = some false) ∧
    (∀ offset slope, fit = some (offset, slope) → ∃ f, p.line = some f ∧ ∀ x, f x = offset + slope * x) ∧ (fit = none → p.line = none) ∧
    ∀ x, x ∈ p.limits ↔ ∃ lo hi, limit = some (lo, hi) ∧ (lo = some x ∨ hi = some x) := by
  unfold plotPosition at h
  split at h
  · rw [← Except.ok.inj h]
    refine ⟨fun x m => points_mem _ _ _ _ _ _, fun x m => points_mem _ _ _ _ _ _, ?_, ?_, ?_⟩
    · rintro o s rfl
      exact ⟨_, rfl, fun x => rfl⟩
    · rintro rfl; rfl
    · intro x
      cases limit with
      | none => simp
      | some l =>
        obtain ⟨lo, hi⟩ := l
        simp only [Option.map_some, Option.getD_some, List.mem_append, Option.mem_toList, Option.mem_def, Option.some.injEq, Prod.mk.injEq]
        constructor
        · intro hx; exact ⟨lo, hi, ⟨rfl, rfl⟩, hx⟩
        · rintro ⟨_, _, ⟨rfl, rfl⟩, hx⟩; exact hx
  · cases h

/-- Two bins of positions and three of residuals. -/
example : EqualBins ([[1, 0, 2], [0, 3, 0]] : List (List Nat)).length [0, 50, 100] ∧ EqualBins 3 [-3, -1, 1, 3] ∧ (∀ row ∈ ([[1, 0, 2], [0, 3, 0]] : List (List Nat)), row.length = 3) ∧
    ∃ p, plotPosition [[1, 0, 2], [0, 3, 0]] [0, 50, 100] [-3, -1, 1, 3] [some 0.5, none] [true, false] (some (0.1, 0.01)) (some (none, some 80)) = .ok p := by
  refine ⟨⟨0, 50, ?_⟩, ⟨-3, 2, ?_⟩, by simp, ⟨_, rfl⟩⟩
  · norm_num [List.range_succ]
  · norm_num [List.range_succ]

end BTA.ResidualPlot.Props
