import Verif.Spec.EffectivePixels
import Verif.Lemmas.Binning
import Mathlib.Tactic.Linarith
import Mathlib.Tactic.Ring
import Mathlib.Tactic.LinearCombination
import Mathlib.Tactic.Push
import Mathlib.Algebra.Order.Field.Basic
import Mathlib.Algebra.Order.Ring.Rat
/-
C169 (tracks outside), C220 and C221: effective pixels and sizes of pixels in the plots of the efficiency.
-/
namespace BTA.EffectivePixels
open BTA.Binning BTA.PixelTree BTA.RegionHist

variable {K : Type} [Field K] [LinearOrder K]

/-! ### C169 -/

/-- C169: with `input_cluster_files` a track with valid hit that crosses the DUT outside of the histogram raises a ValueError. -/
theorem C169_outside (edgesX edgesY : List K) : ∀ (ts : List (K × K)),
    trackBins edgesX edgesY ts = .error .outside ↔ ∃ t ∈ ts, binIndex2 edgesX edgesY t.1 t.2 = none
  | [] => by simp [trackBins]
  | t :: r => by
    have ih := C169_outside edgesX edgesY r
    unfold trackBins
    cases hb : binIndex2 edgesX edgesY t.1 t.2 with
    | none => simp [hb]
    | some b =>
      simp only [List.mem_cons, exists_eq_or_imp, hb, reduceCtorEq, false_or]
      rw [← ih]
      cases h : trackBins edgesX edgesY r with
      | error e => simp
      | ok bs => simp

example : trackBins ([-250, 0, 250] : List ℚ) [-250, 0, 250] [(10, 20), (-10, 300)] = .error .outside :=
  (C169_outside _ _ _).mpr ⟨(-10, 300), by simp, by decide +kernel⟩

/-- C169: otherwise the flat index of a track is the one of the bin it crosses: division by the number of bins in y gives the bin in x, the
remainder the bin in y. -/
theorem C169_bins [IsStrictOrderedRing K] (edgesX edgesY : List K) (hx : BTA.Spec.ValidEdges edgesX) (hy : BTA.Spec.ValidEdges edgesY) :
    ∀ (ts : List (K × K)) (bs : List Nat), trackBins edgesX edgesY ts = .ok bs → bs.length = ts.length ∧
      ∀ (k : Nat) (t : K × K) (b : Nat), ts[k]? = some t → bs[k]? = some b →
        BTA.Spec.InBin edgesX (b / (edgesY.length - 1)) t.1 ∧ BTA.Spec.InBin edgesY (b % (edgesY.length - 1)) t.2
  | [], bs, h => by
    obtain rfl := Except.ok.inj h
    simp
  | t :: r, bs, h => by
    unfold trackBins at h
    cases hb : binIndex2 edgesX edgesY t.1 t.2 with
    | none => simp [hb] at h
    | some c =>
      obtain ⟨i, j⟩ := c
      simp only [hb] at h
      cases hr : trackBins edgesX edgesY r with
      | error e => simp [hr] at h
      | ok bs' =>
        simp only [hr] at h
        obtain rfl := Except.ok.inj h
        obtain ⟨h1, h2⟩ := C169_bins edgesX edgesY hx hy r bs' hr
        obtain ⟨hi, hj⟩ := (BTA.Binning.binIndex2_iff hx hy t.1 t.2 i j).mp hb
        have hjn : j < edgesY.length - 1 := by
          obtain ⟨lo, hi', _, e2, _⟩ := hj
          obtain ⟨e3, _⟩ := List.getElem?_eq_some_iff.mp e2
          omega
        refine ⟨by simp [h1], ?_⟩
        intro k t' b ht hb'
        cases k with
        | zero =>
          simp only [List.getElem?_cons_zero, Option.some.injEq] at ht hb'
          subst ht hb'
          have e1 : (i * (edgesY.length - 1) + j) / (edgesY.length - 1) = i := by
            rw [Nat.mul_comm, Nat.mul_add_div (by omega), Nat.div_eq_of_lt hjn, Nat.add_zero]
          have e2 : (i * (edgesY.length - 1) + j) % (edgesY.length - 1) = j := by
            rw [Nat.mul_comm, Nat.mul_add_mod, Nat.mod_eq_of_lt hjn]
          rw [e1, e2]
          exact ⟨hi, hj⟩
        | succ k => exact h2 k t' b (by simpa using ht) (by simpa using hb')

example : BTA.Spec.ValidEdges ([-250, 0, 250] : List ℚ) ∧
    (match trackBins ([-250, 0, 250] : List ℚ) [-250, 0, 100, 250] [(10, 20), (-10, 130)] with | .ok bs => decide (bs = [4, 2]) | .error _ => false) = true := by
  refine ⟨by unfold BTA.Spec.ValidEdges; decide +kernel, by decide +kernel⟩

/-! ### The picture -/

/-- The picture after the first `k` pixels. -/
def after (n nPixels : Nat) (d : Bins) (k : Nat) : Picture := (List.range k).foldl (paint n nPixels d) ⟨fun _ => none, fun _ => none, 0⟩

theorem after_succ (n nPixels : Nat) (d : Bins) (k : Nat) : after n nPixels d (k + 1) = paint n nPixels d (after n nPixels d k) k := by
  unfold after
  rw [List.range_succ, List.foldl_append]
  rfl

theorem after_pixel (n nPixels : Nat) (d : Bins) (b : Nat) : ∀ k, (after n nPixels d k).pixel b = if b ∈ d.sel ∧ d.effective b < k then some (d.effective b) else none
  | 0 => by simp [after]
  | k + 1 => by
    rw [after_succ]
    show (if b ∈ d.sel ∧ d.effective b = k then some k else (after n nPixels d k).pixel b) = _
    rw [after_pixel n nPixels d b k]
    by_cases hb : b ∈ d.sel
    · simp only [hb, true_and]
      by_cases h1 : d.effective b = k
      · rw [if_pos h1, if_pos (by omega), h1]
      · rw [if_neg h1]
        by_cases h2 : d.effective b < k
        · rw [if_pos h2, if_pos (by omega)]
        · rw [if_neg h2, if_neg (by omega)]
    · simp [hb]

theorem after_colour_none (n nPixels : Nat) (d : Bins) : ∀ k q, k ≤ q → (after n nPixels d k).colour q = none
  | 0, _, _ => rfl
  | k + 1, q, h => by
    rw [after_succ]
    show (if q = k then _ else (after n nPixels d k).colour q) = none
    rw [if_neg (by omega)]
    exact after_colour_none n nPixels d k q (by omega)

theorem after_colour_keep (n nPixels : Nat) (d : Bins) (q : Nat) : ∀ k, q < k → (after n nPixels d k).colour q = (after n nPixels d (q + 1)).colour q
  | 0, h => by omega
  | k + 1, h => by
    rcases Nat.lt_or_ge q k with hk | hk
    · rw [← after_colour_keep n nPixels d q k hk, after_succ]
      show (if q = k then _ else (after n nPixels d k).colour q) = _
      rw [if_neg (by omega)]
    · have : q = k := by omega
      rw [this]

theorem pick_used (n : Nat) (used : List (Option Nat)) : ∀ left c, some (pickColour n used left c % n) ∈ used → ∀ m ≤ left, some ((c + m) % n) ∈ used
  | 0, c, h, m, hm => by
    have : m = 0 := by omega
    subst this
    simpa [pickColour] using h
  | left + 1, c, h, m, hm => by
    unfold pickColour at h
    split at h
    · rename_i hc
      cases m with
      | zero => simpa using hc
      | succ m =>
        have := pick_used n used left (c + 1) h m (by omega)
        rwa [show c + (m + 1) = c + 1 + m by omega]
    · rename_i hc
      exact absurd h hc

theorem pick_all {n : Nat} (hn : 0 < n) {used : List (Option Nat)} {c : Nat} (h : some (pickColour n used (n - 1) c % n) ∈ used) {k : Nat} (hk : k < n) :
    some k ∈ used := by
  have hc : c % n < n := Nat.mod_lt _ hn
  have := pick_used n used (n - 1) c h ((k + n - c % n) % n) (by have := Nat.mod_lt (k + n - c % n) hn; omega)
  have he : (c + (k + n - c % n) % n) % n = k := by
    rw [Nat.add_mod_mod, ← Nat.mod_add_mod, show c % n + (k + n - c % n) = k + n by omega, Nat.add_mod_right, Nat.mod_eq_of_lt hk]
  rwa [he] at this

/-- C220: a bin is shown as the pixel it is attributed to, all other bins are empty. -/
theorem C220_shown (n nPixels : Nat) (d : Bins) (hd : ∀ b ∈ d.sel, d.effective b < nPixels) (b : Nat) :
    (paintAll n nPixels d).pixel b = if b ∈ d.sel then some (d.effective b) else none := by
  have := after_pixel n nPixels d b nPixels
  unfold after at this
  unfold paintAll
  rw [this]
  by_cases hb : b ∈ d.sel
  · rw [if_pos hb, if_pos ⟨hb, hd b hb⟩]
  · rw [if_neg hb, if_neg fun h => hb h.1]

theorem residuals_shown (f : Scipy K) (hf : QueryRight f) (n : Nat) (edgesX edgesY : List K) (centres : List (K × K)) (hc : centres ≠ [])
    (count : Nat → Nat) (rx ry : Nat → K) (b : Nat) (hb : b < (edgesX.length - 1) * (edgesY.length - 1)) :
    (count b = 0 → (paintAll n centres.length (residualBins f edgesX edgesY centres count rx ry)).pixel b = none) ∧
    (0 < count b → ∃ p, (paintAll n centres.length (residualBins f edgesX edgesY centres count rx ry)).pixel b = some p ∧
      ClosestIndex centres ((binCentre edgesX edgesY b).1 + rx b, (binCentre edgesX edgesY b).2 + ry b) p) := by
  have hlt : ∀ pos, f.query centres pos < centres.length := by
    intro pos
    obtain ⟨p, hp, _⟩ := hf centres pos hc
    exact (List.getElem?_eq_some_iff.mp hp).1
  rw [C220_shown n centres.length _ fun b _ => hlt _]
  have hmem : b ∈ (residualBins f edgesX edgesY centres count rx ry).sel ↔ 0 < count b := by
    unfold residualBins
    simp [hb]
  constructor
  · intro h0
    rw [if_neg (by rw [hmem]; omega)]
  · intro h0
    rw [if_pos (hmem.mpr h0)]
    exact ⟨_, rfl, hf centres _ hc⟩

/-- C220: in the picture from the residuals each bin with a hit shows a pixel that is closest to the mean position of the hits: the centre of the
bin (between its edges `x0`, `x1` and `y0`, `y1`) plus the mean residual. Bins without hit show none. -/
theorem C220_residuals (f : Scipy K) (hf : QueryRight f) (n : Nat) (edgesX edgesY : List K) (centres : List (K × K)) (hc : centres ≠ [])
    (count : Nat → Nat) (rx ry : Nat → K) (i j : Nat) (x0 x1 y0 y1 : K) (hx0 : edgesX[i]? = some x0) (hx1 : edgesX[i + 1]? = some x1)
    (hy0 : edgesY[j]? = some y0) (hy1 : edgesY[j + 1]? = some y1) (b : Nat) (hb : b = i * (edgesY.length - 1) + j) :
    (count b = 0 → (paintAll n centres.length (residualBins f edgesX edgesY centres count rx ry)).pixel b = none) ∧
    (0 < count b → ∃ p, (paintAll n centres.length (residualBins f edgesX edgesY centres count rx ry)).pixel b = some p ∧
      ClosestIndex centres ((x0 + x1) / 2 + rx b, (y0 + y1) / 2 + ry b) p) := by
  obtain ⟨hi, -⟩ := List.getElem?_eq_some_iff.mp hx1
  obtain ⟨hj, -⟩ := List.getElem?_eq_some_iff.mp hy1
  have e1 : b / (edgesY.length - 1) = i := by
    rw [hb, Nat.mul_comm, Nat.mul_add_div (by omega), Nat.div_eq_of_lt (by omega), Nat.add_zero]
  have e2 : b % (edgesY.length - 1) = j := by
    rw [hb, Nat.mul_comm, Nat.mul_add_mod, Nat.mod_eq_of_lt (by omega)]
  have hlt : b < (edgesX.length - 1) * (edgesY.length - 1) := by
    have : (i + 1) * (edgesY.length - 1) ≤ (edgesX.length - 1) * (edgesY.length - 1) := Nat.mul_le_mul_right _ (by omega)
    rw [Nat.add_mul, Nat.one_mul] at this
    omega
  have hcentre : binCentre edgesX edgesY b = ((x0 + x1) / 2, (y0 + y1) / 2) := by
    unfold binCentre
    rw [e1, e2]
    simp only [List.getD_eq_getElem?_getD, hx0, hx1, hy0, hy1, Option.getD_some]
    rw [add_comm x1, add_comm y1]
  have := residuals_shown f hf n edgesX edgesY centres hc count rx ry b hlt
  rwa [hcentre] at this

theorem colours_core (n nPixels : Nat) (d : Bins) {p : Nat} (hp : p < nPixels) :
    ∃ used : List (Option Nat), (paintAll n nPixels d).colour p = some (pickColour n used (n - 1) (after n nPixels d p).next % n) ∧
      (after n nPixels d (p + 1)).next = pickColour n used (n - 1) (after n nPixels d p).next + 1 ∧
      ∀ k, some k ∈ used ↔ ∃ b' ∈ d.sel, d.own b' = p ∧ d.effective b' < p ∧ (paintAll n nPixels d).colour (d.effective b') = some k := by
  have hfin : ∀ q, q < nPixels → (paintAll n nPixels d).colour q = (after n nPixels d (q + 1)).colour q := fun q hq => after_colour_keep n nPixels d q nPixels hq
  have hbefore : ∀ q, q < p → (after n nPixels d p).colour q = (paintAll n nPixels d).colour q := by
    intro q hq
    rw [hfin q (by omega), after_colour_keep n nPixels d q p hq]
  have hcol : (paintAll n nPixels d).colour p = some (pickColour n ((d.sel.filter fun b => d.own b = p).map fun b =>
      match (after n nPixels d p).pixel b with
      | some q => (after n nPixels d p).colour q
      | none => (after n nPixels d p).colour (nPixels - 1)) (n - 1) (after n nPixels d p).next % n) := by
    rw [hfin p hp, after_succ]
    show (if p = p then _ else _) = _
    rw [if_pos rfl]
    rfl
  -- the colours in the region
  have hused : ∀ k, some k ∈ ((d.sel.filter fun b => d.own b = p).map fun b =>
      match (after n nPixels d p).pixel b with
      | some q => (after n nPixels d p).colour q
      | none => (after n nPixels d p).colour (nPixels - 1)) ↔
      ∃ b' ∈ d.sel, d.own b' = p ∧ d.effective b' < p ∧ (paintAll n nPixels d).colour (d.effective b') = some k := by
    intro k
    rw [List.mem_map]
    constructor
    · rintro ⟨b, hb, he⟩
      rw [List.mem_filter, decide_eq_true_eq] at hb
      rw [after_pixel] at he
      by_cases hlt : d.effective b < p
      · rw [if_pos ⟨hb.1, hlt⟩] at he
        simp only at he
        rw [hbefore _ hlt] at he
        exact ⟨b, hb.1, hb.2, hlt, he⟩
      · rw [if_neg fun h => hlt h.2] at he
        simp only at he
        rw [after_colour_none n nPixels d p (nPixels - 1) (by omega)] at he
        cases he
    · rintro ⟨b, hb, ho, hlt, he⟩
      refine ⟨b, List.mem_filter.mpr ⟨hb, decide_eq_true ho⟩, ?_⟩
      rw [after_pixel, if_pos ⟨hb, hlt⟩]
      simp only
      rw [hbefore _ hlt]
      exact he
  exact ⟨_, hcol, by rw [after_succ]; rfl, hused⟩

theorem pick_from (n : Nat) (used : List (Option Nat)) : ∀ left c, ∃ k ≤ left, pickColour n used left c = c + k ∧ ∀ m < k, some ((c + m) % n) ∈ used
  | 0, c => ⟨0, le_refl _, rfl, by simp⟩
  | left + 1, c => by
    unfold pickColour
    split
    · rename_i hc
      obtain ⟨k, h1, h2, h3⟩ := pick_from n used left (c + 1)
      refine ⟨k + 1, by omega, by rw [h2]; omega, ?_⟩
      intro m hm
      cases m with
      | zero => simpa using hc
      | succ m =>
        have := h3 m (by omega)
        rwa [show c + (m + 1) = c + 1 + m by omega]
    · exact ⟨0, by omega, rfl, by simp⟩

/-- C220: every pixel has one of the colours. Its colour differs from those of the pixels before it which are shown in its region, unless all colours
occur there. -/
theorem C220_colours {n nPixels : Nat} (hn : 0 < n) (d : Bins) {p : Nat} (hp : p < nPixels) :
    (∃ c < n, (paintAll n nPixels d).colour p = some c) ∧
    ∀ b ∈ d.sel, d.own b = p → d.effective b < p → (paintAll n nPixels d).colour (d.effective b) = (paintAll n nPixels d).colour p →
      ∀ k < n, ∃ b' ∈ d.sel, d.own b' = p ∧ d.effective b' < p ∧ (paintAll n nPixels d).colour (d.effective b') = some k := by
  obtain ⟨used, hcol, -, hused⟩ := colours_core n nPixels d hp
  refine ⟨⟨_, Nat.mod_lt _ hn, hcol⟩, fun b hb ho hlt he k hk => ?_⟩
  exact (hused k).mp (pick_all hn ((hused _).mpr ⟨b, hb, ho, hlt, he.trans hcol⟩) hk)

/-- C220: neighbouring pixels in the order of their numbers have different colours, unless all other colours occur in the region of the second
one. -/
theorem C220_next_colour {n nPixels : Nat} (hn : 0 < n) (d : Bins) {p : Nat} (hp : p + 1 < nPixels)
    (h : (paintAll n nPixels d).colour (p + 1) = (paintAll n nPixels d).colour p) (k : Nat) (hk : k < n) (hne : (paintAll n nPixels d).colour p ≠ some k) :
    ∃ b' ∈ d.sel, d.own b' = p + 1 ∧ d.effective b' < p + 1 ∧ (paintAll n nPixels d).colour (d.effective b') = some k := by
  obtain ⟨u1, c1, n1, -⟩ := colours_core n nPixels d (show p < nPixels by omega)
  obtain ⟨u2, c2, -, h2⟩ := colours_core n nPixels d hp
  generalize pickColour n u1 (n - 1) (after n nPixels d p).next = c at c1 n1
  rw [n1] at c2
  obtain ⟨t, ht, e, hall⟩ := pick_from n u2 (n - 1) (c + 1)
  rw [e, h, c1] at c2
  have hm : c % n = (c + 1 + t) % n := Option.some.inj c2
  have htn : t = n - 1 := by
    by_contra hlt
    have h3 : (c + (t + 1)) % n = (c % n + (t + 1)) % n := by rw [Nat.mod_add_mod]
    rw [show c + 1 + t = c + (t + 1) by omega, h3] at hm
    have hc := Nat.mod_lt c hn
    rcases Nat.lt_or_ge (c % n + (t + 1)) n with hlt' | hge
    · rw [Nat.mod_eq_of_lt hlt'] at hm; omega
    · have h4 : (c % n + (t + 1) - n) % n = c % n + (t + 1) - n := Nat.mod_eq_of_lt (by omega)
      rw [Nat.mod_eq_sub_mod hge, h4] at hm; omega
  have hc := Nat.mod_lt c hn
  rw [c1] at hne
  have hkc : k ≠ c % n := fun e => hne (by rw [e])
  rw [← h2]
  rcases Nat.lt_or_ge (c % n) k with hlt | hge
  · have := hall (k - c % n - 1) (by omega)
    rw [show c + 1 + (k - c % n - 1) = c + (k - c % n) by omega, ← Nat.mod_add_mod, show c % n + (k - c % n) = k by omega, Nat.mod_eq_of_lt hk] at this
    exact this
  · have := hall (k + n - c % n - 1) (by omega)
    rw [show c + 1 + (k + n - c % n - 1) = c + (k + n - c % n) by omega, ← Nat.mod_add_mod, show c % n + (k + n - c % n) = k + n by omega,
      Nat.add_mod_right, Nat.mod_eq_of_lt hk] at this
    exact this

/-- Two pixels that measure their own bins. -/
example : (paintAll 20 2 ⟨[0, 1], fun b => b, fun b => b⟩).colour 0 = some 0 ∧ (paintAll 20 2 ⟨[0, 1], fun b => b, fun b => b⟩).colour 1 = some 1 := by
  decide

theorem marked_iff (d : Bins) (p : Nat) : marked d p = true ↔ ∃ i b, i ≠ 0 ∧ d.sel[i]? = some b ∧ d.own b = p := by
  unfold marked markCount
  rw [bne_iff_ne, ← Nat.pos_iff_ne_zero, List.countP_pos_iff]
  constructor
  · rintro ⟨i, hi, h0⟩
    rw [List.mem_filter, decide_eq_true_eq, Option.map_eq_some_iff] at hi
    obtain ⟨b, hb, ho⟩ := hi.2
    exact ⟨i, b, by simpa using h0, hb, ho⟩
  · rintro ⟨i, b, h0, hb, ho⟩
    refine ⟨i, ?_, by simpa using h0⟩
    rw [List.mem_filter, List.mem_range, decide_eq_true_eq, hb]
    exact ⟨(List.getElem?_eq_some_iff.mp hb).1, by simp [ho]⟩

/-- C220, part: a pixel whose region does not contain the first bin with a hit has a marker iff its region contains a bin with a hit. Missing: the pixel
of the first bin (`C220_marker_fails`). -/
theorem C220_marker_partial (d : Bins) (p : Nat) (hfirst : ∀ b, d.sel.head? = some b → d.own b ≠ p) : marked d p = true ↔ ∃ b ∈ d.sel, d.own b = p := by
  rw [marked_iff]
  constructor
  · rintro ⟨i, b, _, hb, ho⟩; exact ⟨b, List.mem_of_getElem? hb, ho⟩
  · rintro ⟨b, hb, ho⟩
    obtain ⟨i, hi⟩ := List.getElem?_of_mem hb
    refine ⟨i, b, ?_, hi, ho⟩
    rintro rfl
    exact hfirst b (by rw [List.head?_eq_getElem?]; exact hi) ho

/-- C220 is false for the pixel of the first bin with a hit if this is the only one in its region: it has no marker. -/
theorem C220_marker_fails (b : Nat) (r : List Nat) (effective own : Nat → Nat) (h : ∀ c ∈ r, own c ≠ own b) : marked ⟨b :: r, effective, own⟩ (own b) = false := by
  rw [← Bool.not_eq_true, marked_iff]
  rintro ⟨i, c, h0, hc, ho⟩
  cases i with
  | zero => exact h0 rfl
  | succ i => exact h c (List.mem_of_getElem? (by simpa using hc)) ho

/-! ### Sizes -/

/-- C221: the measured sizes of all pixels add up to the area of the bins with hits. -/
theorem C221_measured (resX resY : K) (d : Bins) (n : Nat) (hd : ∀ b ∈ d.sel, d.effective b < n) :
    ((List.range n).map (measuredSize resX resY d)).sum = (d.sel.length : K) * (resX * resY) := by
  have key : ∀ (l : List Nat), (∀ b ∈ l, d.effective b < n) →
      ((List.range n).map fun p => (l.filter fun b => d.effective b = p).length).sum = l.length := by
    intro l
    induction l with
    | nil => intro _; simp
    | cons b r ih =>
      intro h
      have hb := h b (by simp)
      have e : (fun p => ((b :: r).filter fun b => d.effective b = p).length) =
          fun p => (if d.effective b = p then 1 else 0) + (r.filter fun b => d.effective b = p).length := by
        funext p
        rw [List.filter_cons]
        by_cases hp : d.effective b = p
        · simp [hp]; omega
        · simp [hp]
      rw [e, List.sum_map_add, ih fun c hc => h c (by simp [hc]), List.length_cons]
      have one : ((List.range n).map fun p => if d.effective b = p then 1 else 0).sum = 1 := by
        have : ∀ m, ((List.range m).map fun p => if d.effective b = p then 1 else 0).sum = if d.effective b < m then 1 else 0 := by
          intro m
          induction m with
          | zero => simp
          | succ m ihm =>
            rw [List.range_succ, List.map_append, List.sum_append, ihm]
            simp only [List.map_cons, List.map_nil, List.sum_cons, List.sum_nil]
            by_cases h1 : d.effective b < m
            · rw [if_pos h1, if_neg (by omega), if_pos (by omega)]; rfl
            · rw [if_neg h1]
              by_cases h2 : d.effective b = m
              · rw [if_pos h2, if_pos (by omega)]; rfl
              · rw [if_neg h2, if_neg (by omega)]; rfl
        rw [this n, if_pos hb]
      rw [one]; omega
  rw [← key d.sel hd]
  unfold measuredSize
  generalize hg : (fun p => (d.sel.filter fun b => d.effective b = p).length) = g
  have hg' : (fun p => ((d.sel.filter fun b => d.effective b = p).length : K) * resX * resY) = fun p => (g p : K) * resX * resY := by
    funext p; rw [← hg]
  rw [hg']
  generalize List.range n = l
  induction l with
  | nil => simp
  | cons a r ih => simp only [List.map_cons, List.sum_cons, ih]; push_cast; ring

/-- Sum of cross products along a path. -/
def pathSum (prev : K × K) : List (K × K) → K
  | [] => 0
  | a :: r => (a.1 * prev.2 - a.2 * prev.1) + pathSum a r

theorem dot_path : ∀ (prev : K × K) (l m : List (K × K)), l ≠ [] → m = prev :: l.dropLast →
    BTA.dot (l.map Prod.fst) (m.map Prod.snd) - BTA.dot (l.map Prod.snd) (m.map Prod.fst) = pathSum prev l := by
  intro prev l
  induction l generalizing prev with
  | nil => intro m h; exact absurd rfl h
  | cons a r ih =>
    intro m _ hm
    subst hm
    cases r with
    | nil => simp [BTA.dot, pathSum]
    | cons b r =>
      have := ih a _ (by simp) rfl
      rw [pathSum, ← this]
      simp only [BTA.dot, List.dropLast_cons₂, List.map_cons, List.zipWith_cons_cons, List.sum_cons]
      ring

theorem areaOf_path (l : List (K × K)) (z : K × K) (hz : l.getLast? = some z) : areaOf (l.map Prod.fst) (l.map Prod.snd) = 1 / 2 * |pathSum z l| := by
  have hne : l ≠ [] := by rintro rfl; simp at hz
  unfold areaOf roll1
  rw [List.getLast?_map, List.getLast?_map, hz]
  simp only [Option.map_some]
  rw [← dot_path z l _ hne rfl]
  simp only [List.map_cons, List.map_dropLast]

theorem pathSum_replicate (z : K × K) : ∀ k, pathSum z (List.replicate k z) = 0
  | 0 => rfl
  | k + 1 => by
    rw [List.replicate_succ, pathSum, pathSum_replicate z k]; ring

theorem pathSum_append (z : K × K) (m : List (K × K)) : ∀ (prev : K × K) (l : List (K × K)), l.getLast? = some z →
    pathSum prev (l ++ m) = pathSum prev l + pathSum z m := by
  intro prev l
  induction l generalizing prev with
  | nil => intro h; simp at h
  | cons a r ih =>
    intro h
    cases r with
    | nil =>
      simp at h
      subst h
      simp [pathSum]
    | cons b r =>
      rw [List.getLast?_cons_cons] at h
      rw [List.cons_append, pathSum, ih a h]
      conv_rhs => rw [pathSum]
      ring

theorem shoelace_path : ∀ (p q : K × K) (r : List (K × K)) (z : K × K), (p :: r).getLast? = some z →
    (List.zipWith (fun a b : K × K => a.1 * b.2 - a.2 * b.1) (p :: r) (r ++ [q])).sum = -(pathSum p r) - (q.1 * z.2 - q.2 * z.1) := by
  intro p q r
  induction r generalizing p with
  | nil =>
    intro z h
    simp at h
    subst h
    simp [pathSum]; ring
  | cons a r ih =>
    intro z h
    rw [List.getLast?_cons_cons] at h
    rw [List.cons_append, List.zipWith_cons_cons, List.sum_cons, ih a z h, pathSum]
    ring

/-- C221: the lists of vertices of all regions are equally long, so that they are one array. -/
theorem C221_array {E : Type} (regions : List (List E)) (h : ∀ r ∈ regions, r ≠ []) :
    ∀ r ∈ regions, (padded (maxRegionSize regions) r).length = maxRegionSize regions := by
  have key : ∀ (l : List (List E)) (m : Nat), m ≤ l.foldl (fun m r => max m r.length) m ∧ ∀ r ∈ l, r.length ≤ l.foldl (fun m r => max m r.length) m := by
    intro l
    induction l with
    | nil => intro m; simp
    | cons a l ih =>
      intro m
      obtain ⟨h1, h2⟩ := ih (max m a.length)
      refine ⟨le_trans (le_max_left _ _) h1, fun r hr => ?_⟩
      rcases List.mem_cons.mp hr with rfl | hr
      · exact le_trans (le_max_right _ _) h1
      · exact h2 r hr
  intro r hr
  have hle : r.length ≤ maxRegionSize regions := (key regions 0).2 r hr
  unfold padded
  cases hl : r.getLast? with
  | none => exact absurd (List.getLast?_eq_none_iff.mp hl) (h r hr)
  | some z => simp only [List.length_append, List.length_replicate]; omega

example : (padded (maxRegionSize [[1, 2, 3], [4, 5, 6, 7]]) [1, 2, 3] : List Nat) = [1, 2, 3, 3] := by decide

/-- C221: the calculated sizes are the areas of the regions, the vertices added to make all lists equally long do not change them. -/
theorem C221_calculated (regions : List (List (K × K))) : calculatedSizes regions = regions.map shoelace := by
  unfold calculatedSizes
  generalize maxRegionSize regions = n
  apply List.map_congr_left
  intro r _
  cases h : r.getLast? with
  | none =>
    have : r = [] := by simpa using h
    subst this
    simp only [padded, areaOf, roll1, BTA.dot, shoelace, List.getLast?_nil, List.map_nil, List.zipWith_nil_left, List.sum_nil, sub_zero]
    rw [show |(0 : K)| = 0 from by show (0 : K) ⊔ -0 = 0; rw [neg_zero, sup_idem], mul_zero]
  | some z =>
    have hpad : padded n r = r ++ List.replicate (n - r.length) z := by unfold padded; rw [h]
    have hlast : (padded n r).getLast? = some z := by
      rw [hpad, List.getLast?_append, h]
      cases hk : n - r.length with
      | zero => simp
      | succ k => simp [List.getLast?_replicate]
    rw [areaOf_path _ z hlast, hpad, pathSum_append z _ z r h, pathSum_replicate]
    cases r with
    | nil => simp at h
    | cons p r =>
      unfold shoelace
      simp only
      rw [shoelace_path p p r z h, pathSum, add_zero, ← abs_neg]
      congr 2
      ring

/-- C221: for a pixel with the corners of a rectangle, in either direction and starting at any corner, this is the product of its sides. -/
theorem C221_rectangle [IsStrictOrderedRing K] (x y w h : K) (hw : 0 ≤ w) (hh : 0 ≤ h) :
    shoelace [(x, y), (x + w, y), (x + w, y + h), (x, y + h)] = w * h ∧ shoelace [(x + w, y), (x + w, y + h), (x, y + h), (x, y)] = w * h ∧
    shoelace [(x + w, y + h), (x, y + h), (x, y), (x + w, y)] = w * h ∧ shoelace [(x, y + h), (x, y), (x + w, y), (x + w, y + h)] = w * h ∧
    shoelace [(x, y), (x, y + h), (x + w, y + h), (x + w, y)] = w * h := by
  have h1 : 1 / 2 * |2 * (w * h)| = w * h := by
    rw [abs_of_nonneg (by positivity)]; ring
  have h2 : 1 / 2 * |-(2 * (w * h))| = w * h := by rw [abs_neg]; exact h1
  refine ⟨?_, ?_, ?_, ?_, ?_⟩
  · rw [← h1]; unfold shoelace; simp only [List.cons_append, List.nil_append, List.zipWith_cons_cons, List.zipWith_nil_left, List.sum_cons, List.sum_nil]
    congr 2; ring
  · rw [← h1]; unfold shoelace; simp only [List.cons_append, List.nil_append, List.zipWith_cons_cons, List.zipWith_nil_left, List.sum_cons, List.sum_nil]
    congr 2; ring
  · rw [← h1]; unfold shoelace; simp only [List.cons_append, List.nil_append, List.zipWith_cons_cons, List.zipWith_nil_left, List.sum_cons, List.sum_nil]
    congr 2; ring
  · rw [← h1]; unfold shoelace; simp only [List.cons_append, List.nil_append, List.zipWith_cons_cons, List.zipWith_nil_left, List.sum_cons, List.sum_nil]
    congr 2; ring
  · rw [← h2]; unfold shoelace; simp only [List.cons_append, List.nil_append, List.zipWith_cons_cons, List.zipWith_nil_left, List.sum_cons, List.sum_nil]
    congr 2; ring

/-! ### From the hits -/

theorem largest_spec (h : Nat × Nat → Nat) : ∀ (l : List (Nat × Nat)) (best : Nat × Nat),
    (largest h l best = best ∨ largest h l best ∈ l) ∧ h best ≤ h (largest h l best) ∧ ∀ o ∈ l, h o ≤ h (largest h l best)
  | [], best => by simp [largest]
  | o :: r, best => by
    unfold largest
    obtain ⟨h1, h2, h3⟩ := largest_spec h r (if h best < h o then o else best)
    split at h1 <;> rename_i hlt
    · rw [if_pos hlt] at h2 h3 ⊢
      refine ⟨?_, by omega, ?_⟩
      · rcases h1 with h1 | h1
        · right; rw [h1]; simp
        · right; simp [h1]
      · intro u hu
        rcases List.mem_cons.mp hu with rfl | hu
        · exact h2
        · exact h3 u hu
    · rw [if_neg hlt] at h2 h3 ⊢
      refine ⟨?_, h2, ?_⟩
      · rcases h1 with h1 | h1
        · exact .inl h1
        · right; simp [h1]
      · intro u hu
        rcases List.mem_cons.mp hu with rfl | hu
        · omega
        · exact h3 u hu

theorem largest_zero (h : Nat × Nat → Nat) : ∀ (l : List (Nat × Nat)) (best : Nat × Nat), (∀ o ∈ l, h o = 0) → largest h l best = best
  | [], _, _ => rfl
  | o :: r, best, hz => by
    unfold largest
    rw [if_neg (by rw [hz o (by simp)]; omega)]
    exact largest_zero h r best fun u hu => hz u (by simp [hu])

theorem mem_offsets (s : Sensor) (o : Nat × Nat) : o ∈ offsets s ↔ o.1 < s.shapeX ∧ o.2 < s.shapeY := by
  unfold offsets
  rw [List.mem_map]
  constructor
  · rintro ⟨i, hi, rfl⟩
    rw [List.mem_range] at hi
    have hy : 0 < s.shapeY := by
      rcases Nat.eq_zero_or_pos s.shapeY with h | h
      · rw [h] at hi; simp at hi
      · exact h
    exact ⟨Nat.div_lt_of_lt_mul (by rwa [Nat.mul_comm]), Nat.mod_lt _ hy⟩
  · rintro ⟨h1, h2⟩
    refine ⟨o.1 * s.shapeY + o.2, ?_, ?_⟩
    · rw [List.mem_range]
      calc o.1 * s.shapeY + o.2 < o.1 * s.shapeY + s.shapeY := by omega
        _ = (o.1 + 1) * s.shapeY := by ring
        _ ≤ s.shapeX * s.shapeY := Nat.mul_le_mul_right _ h1
    · have hy : 0 < s.shapeY := by omega
      rw [Nat.mul_comm, Nat.mul_add_div hy, Nat.div_eq_of_lt h2, Nat.mul_add_mod, Nat.mod_eq_of_lt h2]
      simp

theorem hitsOf_offset (s : Sensor) (hist : Hist) (b : Nat) (o : Nat × Nat) (ho : o ∈ offsets s) :
    hitsOf s hist b (((s.own b / s.nRows : Nat) : Int) + ((o.1 : Int) - ((s.shapeX / 2 : Nat) : Int)))
      (((s.own b % s.nRows : Nat) : Int) + ((o.2 : Int) - ((s.shapeY / 2 : Nat) : Int))) = hist b o := by
  rw [mem_offsets] at ho
  unfold hitsOf
  simp only
  rw [show ((s.own b / s.nRows : Nat) : Int) + ((o.1 : Int) - ((s.shapeX / 2 : Nat) : Int)) - ((s.own b / s.nRows : Nat) : Int) + ((s.shapeX / 2 : Nat) : Int) = o.1 by ring,
    show ((s.own b % s.nRows : Nat) : Int) + ((o.2 : Int) - ((s.shapeY / 2 : Nat) : Int)) - ((s.own b % s.nRows : Nat) : Int) + ((s.shapeY / 2 : Nat) : Int) = o.2 by ring,
    if_pos (by omega)]
  simp

theorem hasHits_iff (s : Sensor) (hist : Hist) (b : Nat) : hasHits s hist b = true ↔ ∃ o ∈ offsets s, hist b o ≠ 0 := by
  unfold hasHits
  rw [bne_iff_ne, ne_eq, List.sum_eq_zero_iff]
  simp

/-- C221: if hits are only on pixels of the sensor, the bins with hits are found, and each is attributed to a pixel of the sensor with the most hits. -/
theorem C221_most (s : Sensor) (hist : Hist) (hreal : ∀ b c r, hitsOf s hist b c r ≠ 0 → OnSensor s c r) (hown : ∀ b, s.own b < s.nColumns * s.nRows) :
    ∃ d, hitBins s hist = .ok d ∧ (∀ b, b ∈ d.sel ↔ b < s.nBins ∧ ∃ c r, hitsOf s hist b c r ≠ 0) ∧
      ∀ b ∈ d.sel, ∃ c r : Nat, c < s.nColumns ∧ r < s.nRows ∧ d.effective b = c * s.nRows + r ∧ 0 < hitsOf s hist b c r ∧
        ∀ c' r', hitsOf s hist b c' r' ≤ hitsOf s hist b c r := by
  have hrows : 0 < s.nRows := by
    have := hown 0
    rcases Nat.eq_zero_or_pos s.nRows with h | h
    · rw [h] at this; omega
    · exact h
  have hany : ∀ b c r, hitsOf s hist b c r ≠ 0 → ∃ o ∈ offsets s, hist b o = hitsOf s hist b c r := by
    intro b c r h
    unfold hitsOf at h ⊢
    simp only at h ⊢
    split at h
    · rename_i hin
      rw [if_pos hin]
      exact ⟨_, (mem_offsets s _).mpr ⟨by omega, by omega⟩, rfl⟩
    · exact absurd rfl h
  -- a bin with hits
  have hmost : ∀ b, hasHits s hist b = true → ∃ o ∈ offsets s,
      mostHit s hist b = (((s.own b / s.nRows : Nat) : Int) + ((o.1 : Int) - ((s.shapeX / 2 : Nat) : Int)), ((s.own b % s.nRows : Nat) : Int) + ((o.2 : Int) - ((s.shapeY / 2 : Nat) : Int))) ∧
      0 < hist b o ∧ ∀ u ∈ offsets s, hist b u ≤ hist b o := by
    intro b hb
    obtain ⟨o, ho, hne⟩ := (hasHits_iff s hist b).mp hb
    obtain ⟨h1, h2, h3⟩ := largest_spec (hist b) (offsets s) (0, 0)
    refine ⟨largest (hist b) (offsets s) (0, 0), ?_, ?_, ?_, h3⟩
    · rcases h1 with h1 | h1
      · rw [h1, mem_offsets]
        rw [mem_offsets] at ho
        exact ⟨by simp only; omega, by simp only; omega⟩
      · exact h1
    · unfold mostHit
      simp only
      rw [if_pos hb]
    · have := h3 o ho; omega
  have hsensor : ∀ b, OnSensor s (mostHit s hist b).1 (mostHit s hist b).2 := by
    intro b
    by_cases hb : hasHits s hist b = true
    · obtain ⟨o, ho, he, hpos, _⟩ := hmost b hb
      rw [he]
      apply hreal b
      rw [hitsOf_offset s hist b o ho]
      omega
    · have hz : ∀ o ∈ offsets s, hist b o = 0 := by
        intro o ho
        by_contra hc
        exact hb ((hasHits_iff s hist b).mpr ⟨o, ho, hc⟩)
      have : mostHit s hist b = (((s.own b / s.nRows : Nat) : Int), ((s.own b % s.nRows : Nat) : Int)) := by
        unfold mostHit
        rw [largest_zero _ _ _ hz]
        simp only
        rw [if_neg hb]
        simp
      rw [this]
      have h1 : s.own b / s.nRows < s.nColumns := Nat.div_lt_of_lt_mul (by rw [Nat.mul_comm]; exact hown b)
      have h2 : s.own b % s.nRows < s.nRows := Nat.mod_lt _ hrows
      unfold OnSensor
      simp only
      generalize s.own b / s.nRows = u at *
      generalize s.own b % s.nRows = v at *
      omega
  refine ⟨_, by unfold hitBins; exact if_pos (List.all_eq_true.mpr fun b _ => decide_eq_true (show _ ∧ _ from hsensor b)), ?_, ?_⟩
  · intro b
    simp only [List.mem_filter, List.mem_range, hasHits_iff]
    refine and_congr_right fun _ => ?_
    constructor
    · rintro ⟨o, ho, hne⟩
      exact ⟨_, _, by rw [hitsOf_offset s hist b o ho]; exact hne⟩
    · rintro ⟨c, r, hne⟩
      obtain ⟨o, ho, he⟩ := hany b c r hne
      exact ⟨o, ho, by rw [he]; exact hne⟩
  · intro b hb
    simp only [List.mem_filter, List.mem_range] at hb
    obtain ⟨o, ho, he, hpos, hmax⟩ := hmost b hb.2
    obtain ⟨a1, a2, a3, a4⟩ := hsensor b
    refine ⟨(mostHit s hist b).1.toNat, (mostHit s hist b).2.toNat, by omega, by omega, rfl, ?_⟩
    rw [Int.toNat_of_nonneg a1, Int.toNat_of_nonneg a3, he]
    simp only
    rw [hitsOf_offset s hist b o ho]
    refine ⟨hpos, fun c' r' => ?_⟩
    by_cases hz : hitsOf s hist b c' r' = 0
    · omega
    · obtain ⟨u, hu, hue⟩ := hany b c' r' hz
      rw [← hue]; exact hmax u hu

/-- C221 is false for the plot: with `input_cluster_files` and an output file it is never made, the call raises an exception for every histogram. -/
theorem C221_plot_fails (s : Sensor) (hist : Hist) : ∃ e, (sizePlot s hist : Except Err (List K × List K)) = .error e := by
  unfold sizePlot
  cases hitBins s hist with
  | error e => exact ⟨e, rfl⟩
  | ok d => exact ⟨_, rfl⟩

/-! ### Examples -/

/-- Three bins, the second one in the region of pixel 1 is measured by pixel 0. -/
def threeBins : Bins := ⟨[0, 2, 3], fun b => if b = 2 then 0 else b / 2, fun b => b / 2⟩

example : ∀ b ∈ threeBins.sel, threeBins.effective b < 2 := by decide
example : (paintAll 20 2 threeBins).pixel 2 = some 0 ∧ (paintAll 20 2 threeBins).pixel 1 = none ∧
    (paintAll 20 2 threeBins).colour 0 = some 0 ∧ (paintAll 20 2 threeBins).colour 1 = some 1 := by decide
/-- Pixel 0 has no marker although bin 0 in its region has a hit. -/
example : marked threeBins 0 = false ∧ marked threeBins 1 = true := by decide
example : measuredSize (10 : ℚ) 20 threeBins 0 = 400 ∧ measuredSize (10 : ℚ) 20 threeBins 1 = 200 := by decide +kernel

/-- A triangle next to a square. -/
example : calculatedSizes ([[(0, 0), (4, 0), (4, 4), (0, 4)], [(4, 0), (8, 0), (4, 4)]] : List (List (ℚ × ℚ))) = [16, 8] := by
  rw [C221_calculated]
  decide +kernel

/-- Two pixels in a row; the hits of tracks in bin 1 are in pixel 0. -/
def twoPixels : Sensor := ⟨2, 1, 3, 3, 2, id⟩
def leftHits : Hist := fun b o => if b = 1 ∧ o = (0, 1) then 5 else if b = 1 ∧ o = (1, 1) then 2 else 0

example : ∃ d, hitBins twoPixels leftHits = .ok d ∧ d.sel = [1] ∧ d.effective 1 = 0 := ⟨_, rfl, by decide +kernel, by decide +kernel⟩

end BTA.EffectivePixels
