import Verif.Lemmas.Std
import Verif.Props.Purity
/-
C115: the histograms of the track angles; C116: mean and standard deviation from a histogram.
-/
namespace BTA.HistStat.Props
open BTA.Binning BTA.Spec BTA.HistStat

/-- The angles that are not NaN. -/
def valid (c : List (Option ℝ)) : List ℝ := c.filterMap id

/-- Mean and standard deviation of a list of values. -/
structure IsMeanStd (l : List ℝ) (m s : ℝ) : Prop where
  mean : m * l.length = l.sum
  nonneg : 0 ≤ s
  std : s ^ 2 * l.length = (l.map fun v => (v - m) ^ 2).sum

theorem isMeanStd (l : List ℝ) (h : l ≠ []) : IsMeanStd l (l.sum / l.length) (std l) where
  mean := by
    have hn : (l.length : ℝ) ≠ 0 := Nat.cast_ne_zero.mpr (by rwa [Ne, List.length_eq_zero_iff])
    field_simp
  nonneg := std_nonneg l
  std := std_sq l h

theorem isMeanStd_unique (l : List ℝ) (h : l ≠ []) (m s : ℝ) (hm : IsMeanStd l m s) : m = l.sum / l.length ∧ s = std l := by
  have hn : (0 : ℝ) < l.length := Nat.cast_pos.mpr (List.length_pos_iff.mpr h)
  have e : m = l.sum / l.length := by rw [← hm.mean]; field_simp
  subst e
  refine ⟨rfl, ?_⟩
  have h1 := hm.std
  rw [← std_sq l h] at h1
  have h2 := mul_right_cancel₀ hn.ne' h1
  exact (sq_eq_sq₀ hm.nonneg (std_nonneg l)).mp h2

/-- The range of the histogram: five standard deviations around the mean; one unit around the mean if all values are the same. -/
theorem angleRange_some (c : List (Option ℝ)) (lo hi : ℝ) (h : angleRange c = some (lo, hi)) : valid c ≠ [] ∧ ∃ m s, IsMeanStd (valid c) m s ∧
    ((0 < s ∧ lo = m - 5 * s ∧ hi = m + 5 * s) ∨ (s = 0 ∧ lo = m - 1 / 2 ∧ hi = m + 1 / 2)) := by
  unfold angleRange nanmean nanstd at h
  split at h
  · rename_i m s hm hs
    split at hm
    · cases hm
    · rename_i hne
      injection hm with hm
      rw [if_neg hne] at hs
      injection hs with hs
      injection h with h
      have hms := isMeanStd (valid c) hne
      refine ⟨hne, m, s, ?_, ?_⟩
      · rw [← hm, ← hs]; exact hms
      · have hs0 : 0 ≤ s := hs ▸ std_nonneg _
        unfold npRange at h
        rcases lt_or_eq_of_le hs0 with h0 | h0
        · left
          rw [if_neg (by linarith)] at h
          obtain ⟨h1, h2⟩ := Prod.mk.inj h
          exact ⟨h0, h1.symm, h2.symm⟩
        · right
          rw [← h0, if_pos (by ring)] at h
          obtain ⟨h1, h2⟩ := Prod.mk.inj h
          exact ⟨h0.symm, by rw [← h1]; ring, by rw [← h2]; ring⟩
  · cases h

theorem angleRange_none (c : List (Option ℝ)) : angleRange c = none ↔ valid c = [] := by
  constructor
  · intro h
    by_contra hne
    unfold angleRange nanmean nanstd at h
    have hne : ¬ c.filterMap id = [] := hne
    rw [if_neg hne, if_neg hne] at h
    cases h
  · intro h
    have h : c.filterMap id = [] := h
    unfold angleRange nanmean nanstd
    rw [if_pos h]

theorem histogram_length (edges : List ℝ) (c : List (Option ℝ)) : (histogram edges c).length = edges.length - 1 := by simp [histogram]

theorem histogram_append (edges : List ℝ) (c c' : List (Option ℝ)) :
    List.zipWith (· + ·) (histogram edges c) (histogram edges c') = histogram edges (c ++ c') := by
  apply List.ext_getElem
  · simp [histogram]
  · intro i h1 h2
    simp [histogram, List.filterMap_append, counts_append]

theorem addChunks_eq (edges : List ℝ) : ∀ (cs : List (List (Option ℝ))) (c : List (Option ℝ)),
    addChunks edges (histogram edges c) cs = histogram edges (c ++ cs.flatten)
  | [], c => by simp [addChunks]
  | d :: cs, c => by
    simp only [addChunks]
    rw [histogram_append, addChunks_eq edges cs (c ++ d), List.flatten_cons, List.append_assoc]

theorem angleHist_ok (n : Nat) (c : List (Option ℝ)) (cs : List (List (Option ℝ))) (hist : List Nat) (edges : List ℝ) :
    angleHist n (c :: cs) = .ok (hist, edges) ↔ n ≠ 0 ∧ ∃ lo hi, angleRange c = some (lo, hi) ∧ edges = linspace lo hi n ∧
      hist = histogram edges (c ++ cs.flatten) := by
  simp only [angleHist]
  split
  · rename_i h
    simp [h]
  · rename_i h
    split
    · rename_i hr
      simp [hr]
    · rename_i lo hi hr
      rw [addChunks_eq]
      constructor
      · intro e
        injection e with e
        obtain ⟨h1, h2⟩ := Prod.mk.inj e
        exact ⟨h, lo, hi, hr, h2.symm, by rw [← h2, ← h1]⟩
      · rintro ⟨-, lo', hi', hr', rfl, rfl⟩
        rw [hr] at hr'
        injection hr' with hr'
        obtain ⟨rfl, rfl⟩ := Prod.mk.inj hr'
        rfl

theorem range_lt (c : List (Option ℝ)) (lo hi : ℝ) (h : angleRange c = some (lo, hi)) : lo < hi := by
  obtain ⟨-, m, s, -, h⟩ := angleRange_some c lo hi h
  rcases h with ⟨h0, rfl, rfl⟩ | ⟨-, rfl, rfl⟩ <;> linarith

/-- C115: the range of the histogram is five standard deviations around the mean of the first chunk, with bins of the same width. -/
theorem C115_range (n : Nat) (c : List (Option ℝ)) (cs : List (List (Option ℝ))) (hist : List Nat) (edges : List ℝ)
    (h : angleHist n (c :: cs) = .ok (hist, edges)) : ∃ m s lo hi, IsMeanStd (valid c) m s ∧
      ((0 < s ∧ lo = m - 5 * s ∧ hi = m + 5 * s) ∨ (s = 0 ∧ lo = m - 1 / 2 ∧ hi = m + 1 / 2)) ∧ edges.length = n + 1 ∧
      ∀ i, i ≤ n → edges[i]? = some (lo + i * ((hi - lo) / n)) := by
  obtain ⟨hn, lo, hi, hr, rfl, -⟩ := (angleHist_ok n c cs hist edges).mp h
  obtain ⟨-, m, s, hms, hlh⟩ := angleRange_some c lo hi hr
  refine ⟨m, s, lo, hi, hms, hlh, by simp [linspace], fun i hi => ?_⟩
  unfold linspace
  rw [List.getElem?_map, List.getElem?_range (by omega)]
  rfl

/-- C115: each bin has the number of tracks of all chunks with an angle in the bin. -/
theorem C115_counts (n : Nat) (chunks : List (List (Option ℝ))) (hist : List Nat) (edges : List ℝ)
    (h : angleHist n chunks = .ok (hist, edges)) : hist.length = n ∧ ValidEdges edges ∧
      ∀ i, i < n → hist[i]? = some (number (valid chunks.flatten) (InBin edges i)) := by
  cases chunks with
  | nil => cases h
  | cons c cs =>
    obtain ⟨hn, lo, hi, hr, rfl, rfl⟩ := (angleHist_ok n c cs hist edges).mp h
    have hv := Purity.Props.linspace_valid lo hi n (range_lt c lo hi hr) (Nat.pos_of_ne_zero hn)
    have hl : (linspace lo hi n).length = n + 1 := by simp [linspace]
    refine ⟨by rw [histogram_length, hl]; rfl, hv, fun i hin => ?_⟩
    unfold histogram
    rw [List.getElem?_map, List.getElem?_range (by omega), Option.map_some, counts_eq_length, List.flatten_cons]
    congr 1
    unfold number valid
    congr 1
    refine List.filter_congr fun v _ => ?_
    exact decide_eq_decide.mpr (binIndex_iff hv v i)

theorem bin_exists (edges : List ℝ) (hv : ValidEdges edges) (lo hi v : ℝ) (hlo : edges.head? = some lo) (hhi : edges.getLast? = some hi)
    (h1 : lo ≤ v) (h2 : v ≤ hi) : ∃ i, i < edges.length - 1 ∧ binIndex edges v = some i := by
  have hs : ∃ i, binIndex edges v = some i := by
    unfold binIndex
    rw [hlo, hhi]
    dsimp only
    rw [if_neg (by have := hv.1; omega)]
    split
    · exact ⟨_, rfl⟩
    · rw [if_neg (by push Not; exact ⟨h1, h2⟩)]
      exact ⟨_, rfl⟩
  obtain ⟨i, hi'⟩ := hs
  obtain ⟨_, _, _, h3, -⟩ := (binIndex_iff hv v i).mp hi'
  exact ⟨i, by have := (List.getElem?_eq_some_iff.mp h3).1; omega, hi'⟩

theorem bin_none (edges : List ℝ) (lo hi v : ℝ) (hv : ValidEdges edges) (hlo : edges.head? = some lo) (hhi : edges.getLast? = some hi)
    (h : v < lo ∨ hi < v) : binIndex edges v = none := by
  unfold binIndex
  rw [hlo, hhi]
  dsimp only
  rw [if_neg (by have := hv.1; omega)]
  have hlh : lo ≤ hi := by
    rw [List.head?_eq_getElem?] at hlo
    rw [List.getLast?_eq_getElem?] at hhi
    have := hv.1
    exact (lt_of_getElem? hv.2 hlo hhi (by omega)).le
  rw [if_neg (by rintro rfl; rcases h with h | h <;> linarith), if_pos h]

theorem linspace_head (lo hi : ℝ) (n : Nat) : (linspace lo hi n).head? = some lo := by
  rw [List.head?_eq_getElem?]
  unfold linspace
  rw [List.getElem?_map, List.getElem?_range (by omega)]
  simp

theorem linspace_last (lo hi : ℝ) (n : Nat) (hn : n ≠ 0) : (linspace lo hi n).getLast? = some hi := by
  rw [List.getLast?_eq_getElem?]
  unfold linspace
  rw [List.getElem?_map, List.length_map, List.length_range, List.getElem?_range (by omega)]
  have : (n : ℝ) ≠ 0 := Nat.cast_ne_zero.mpr hn
  simp
  field_simp
  ring

theorem sum_range_zero (j : Nat) : ∀ n, n ≤ j → ((List.range n).map fun i => if i = j then 1 else 0).sum = 0
  | 0, _ => rfl
  | n + 1, h => by
    rw [List.range_succ, List.map_append, List.sum_append, sum_range_zero j n (by omega)]
    have : ¬ n = j := by omega
    simp [this]

theorem sum_range_one : ∀ n j, j < n → ((List.range n).map fun i => if i = j then 1 else 0).sum = 1
  | n + 1, j, h => by
    rw [List.range_succ, List.map_append, List.sum_append]
    by_cases hj : j = n
    · subst hj
      rw [sum_range_zero j j le_rfl]
      simp
    · rw [sum_range_one n j (by omega)]
      have : ¬ n = j := fun h => hj h.symm
      simp [this]

/-- The sum of a histogram. -/
theorem sum_histogram (bin : ℝ → Option Nat) (n : Nat) : ∀ vs : List ℝ, (∀ v i, bin v = some i → i < n) →
    ((List.range n).map fun i => counts bin vs i).sum = vs.countP fun v => decide ((bin v).isSome)
  | [], _ => by simp [counts]
  | v :: vs, h => by
    have ih := sum_histogram bin n vs h
    have e : ∀ i, counts bin (v :: vs) i = (if bin v = some i then 1 else 0) + counts bin vs i := by
      intro i
      unfold counts
      rw [List.countP_cons]
      split <;> simp_all
      omega
    simp only [e]
    rw [List.sum_map_add, ih, List.countP_cons, add_comm]
    congr 1
    cases hb : bin v with
    | none => simp
    | some j =>
      have hj := h v j hb
      have : ((List.range n).map fun i => if some j = some i then 1 else 0).sum = ((List.range n).map fun i => if i = j then 1 else 0).sum := by
        congr 1
        refine List.map_congr_left fun i _ => ?_
        by_cases hij : i = j
        · simp [hij]
        · have : ¬ j = i := fun h => hij h.symm
          simp [hij, this]
      rw [this, sum_range_one n j hj]
      simp

theorem histogram_sum (edges : List ℝ) (hv : ValidEdges edges) (c : List (Option ℝ)) :
    (histogram edges c).sum = (valid c).countP fun v => decide ((binIndex edges v).isSome) := by
  unfold histogram
  exact sum_histogram _ _ _ fun v i hb => by
    obtain ⟨_, _, _, h3, -⟩ := (binIndex_iff hv v i).mp hb
    have := (List.getElem?_eq_some_iff.mp h3).1
    omega

/-- C115, true part: if all tracks are in one chunk, the histogram has at least 96 % of the tracks with an angle. Missing: more than one chunk;
see `C115_lost`. -/
theorem C115_partial (n : Nat) (c : List (Option ℝ)) (hist : List Nat) (edges : List ℝ) (h : angleHist n [c] = .ok (hist, edges)) :
    hist.sum ≤ (valid c).length ∧ 24 * (valid c).length ≤ 25 * hist.sum := by
  obtain ⟨hn, lo, hi, hr, rfl, rfl⟩ := (angleHist_ok n c [] hist edges).mp h
  have hv := Purity.Props.linspace_valid lo hi n (range_lt c lo hi hr) (Nat.pos_of_ne_zero hn)
  obtain ⟨hne, m, s, hms, hlh⟩ := angleRange_some c lo hi hr
  obtain ⟨rfl, rfl⟩ := isMeanStd_unique _ hne m s hms
  rw [List.flatten_nil, List.append_nil, histogram_sum _ hv]
  refine ⟨List.countP_le_length, ?_⟩
  set p : ℝ → Bool := fun v => decide ((binIndex (linspace lo hi n) v).isSome)
  have hin : ∀ v, lo ≤ v → v ≤ hi → p v = true := by
    intro v h1 h2
    obtain ⟨i, -, hi⟩ := bin_exists _ hv lo hi v (linspace_head lo hi n) (linspace_last lo hi n hn) h1 h2
    simp [p, hi]
  have hsum : (valid c).length = (valid c).countP p + (valid c).countP fun v => !p v := by
    have := List.length_eq_countP_add_countP (p := p) (l := valid c)
    simpa using this
  rcases hlh with ⟨hs, rfl, rfl⟩ | ⟨hs, rfl, rfl⟩
  · have hc := chebyshev (valid c) hne 5 hs (by norm_num)
    set m := (valid c).sum / (valid c).length with hm
    have hle : (valid c).countP (fun v => !p v) ≤ (valid c).countP fun v => decide (5 * std (valid c) < |v - m|) := by
      refine List.countP_mono_left fun v _ hv => ?_
      by_contra hcon
      have hcon : ¬ 5 * std (valid c) < |v - m| := by simpa using hcon
      obtain ⟨h1, h2⟩ := abs_le.mp (not_lt.mp hcon)
      have := hin v (by linarith) (by linarith)
      rw [this] at hv
      cases hv
    have : ((valid c).countP fun v => decide (5 * std (valid c) < |v - m|)) * 25 ≤ (valid c).length := by
      have : (((valid c).countP fun v => decide (5 * std (valid c) < |v - m|)) : ℝ) * 25 ≤ (valid c).length := by linarith
      exact_mod_cast this
    omega
  · have hall := std_zero (valid c) hne hs
    have : (valid c).countP (fun v => !p v) = 0 := by
      rw [List.countP_eq_zero]
      intro v hv
      have := hall v hv
      rw [hin v (by linarith) (by linarith)]
      simp
    omega

theorem histogram_outside (edges : List ℝ) (lo hi : ℝ) (hv : ValidEdges edges) (hlo : edges.head? = some lo) (hhi : edges.getLast? = some hi)
    (c d : List (Option ℝ)) (h : ∀ v ∈ valid d, v < lo ∨ hi < v) : histogram edges (c ++ d) = histogram edges c := by
  unfold histogram
  refine List.map_congr_left fun i _ => ?_
  rw [List.filterMap_append, counts_append]
  have : counts (binIndex edges) (d.filterMap id) i = 0 := by
    unfold counts
    rw [List.countP_eq_zero]
    intro v hv'
    rw [bin_none edges lo hi v hv hlo hhi (h v hv')]
    simp
  omega

/-- C115, the claim is false for more than one chunk: tracks of the further chunks outside of five standard deviations of the first chunk are lost,
however many they are; the result is the one without these chunks. -/
theorem C115_lost (n : Nat) (c : List (Option ℝ)) (cs : List (List (Option ℝ))) (m s : ℝ) (hm : IsMeanStd (valid c) m s) (hs : 0 < s)
    (h : ∀ d ∈ cs, ∀ v ∈ valid d, v < m - 5 * s ∨ m + 5 * s < v) : angleHist n (c :: cs) = angleHist n [c] := by
  simp only [angleHist]
  split
  · rfl
  · rename_i hn
    cases hr : angleRange c with
    | none => rfl
    | some r =>
      obtain ⟨lo, hi⟩ := r
      dsimp only
      have hv := Purity.Props.linspace_valid lo hi n (range_lt c lo hi hr) (Nat.pos_of_ne_zero hn)
      obtain ⟨hne, m', s', hms, hlh⟩ := angleRange_some c lo hi hr
      obtain ⟨e1, e2⟩ := isMeanStd_unique _ hne m s hm
      obtain ⟨e3, e4⟩ := isMeanStd_unique _ hne m' s' hms
      rw [e3, e4, ← e1, ← e2] at hlh
      rcases hlh with ⟨-, rfl, rfl⟩ | ⟨h0, -⟩
      · rw [addChunks_eq, addChunks_eq, List.flatten_nil, List.append_nil,
          histogram_outside _ _ _ hv (linspace_head _ _ n) (linspace_last _ _ n hn)]
        intro v hv
        obtain ⟨d, hd, hvd⟩ : ∃ d ∈ cs, v ∈ valid d := by
          unfold valid at hv ⊢
          rw [List.mem_filterMap] at hv
          obtain ⟨a, ha, hav⟩ := hv
          obtain ⟨d, hd, had⟩ := List.mem_flatten.mp ha
          exact ⟨d, hd, List.mem_filterMap.mpr ⟨a, had, hav⟩⟩
        exact h d hd v hvd
      · exact absurd h0 hs.ne'

/-- Two tracks in the first chunk; tracks with an angle of 1 in the second one are lost. -/
example : IsMeanStd (valid [some 0, none, some (2 / 100)]) (1 / 100) (1 / 100) ∧ (0 : ℝ) < 1 / 100 ∧
    ∀ d ∈ [[some (1 : ℝ), some 1, some 1]], ∀ v ∈ valid d, v < (1 / 100 : ℝ) - 5 * (1 / 100) ∨ (1 / 100 : ℝ) + 5 * (1 / 100) < v := by
  refine ⟨⟨?_, by norm_num, ?_⟩, by norm_num, ?_⟩
  · simp [valid]; norm_num
  · simp [valid]; norm_num
  · intro d hd v hv
    rw [List.mem_singleton.mp hd] at hv
    simp [valid] at hv
    right
    rw [hv]
    norm_num

/-- C115: the errors: no chunk, no bins, no track with an angle in the first chunk. -/
theorem C115_error_iff (n : Nat) (chunks : List (List (Option ℝ))) (e : AngleErr) : angleHist n chunks = .error e ↔
    (e = .unbound ∧ chunks = []) ∨ (e = .value ∧ ∃ c cs, chunks = c :: cs ∧ (n = 0 ∨ valid c = [])) := by
  cases chunks with
  | nil =>
    constructor
    · intro h
      simp only [angleHist] at h
      injection h with h
      exact .inl ⟨h.symm, rfl⟩
    · rintro (⟨rfl, -⟩ | ⟨-, c, cs, h, -⟩)
      · rfl
      · cases h
  | cons c cs =>
    have hval : (n = 0 ∨ valid c = []) → angleHist n (c :: cs) = .error .value := by
      intro h
      simp only [angleHist]
      split
      · rfl
      · rename_i hn
        rw [(angleRange_none c).mpr (h.resolve_left hn)]
    by_cases hc : n = 0 ∨ valid c = []
    · rw [hval hc]
      constructor
      · intro h
        injection h with h
        exact .inr ⟨h.symm, c, cs, rfl, hc⟩
      · rintro (⟨-, h⟩ | ⟨rfl, -⟩)
        · cases h
        · rfl
    · push Not at hc
      have hok : ∃ r, angleHist n (c :: cs) = .ok r := by
        simp only [angleHist]
        rw [if_neg hc.1]
        cases ha : angleRange c with
        | none => exact absurd ((angleRange_none c).mp ha) hc.2
        | some r => exact ⟨_, rfl⟩
      obtain ⟨r, hr⟩ := hok
      rw [hr]
      constructor
      · intro h; cases h
      · rintro (⟨-, h⟩ | ⟨-, c', cs', h, h'⟩)
        · cases h
        · cases h
          rcases h' with h' | h'
          · exact absurd h' hc.1
          · exact absurd h' hc.2

/-! ### Mean and standard deviation from a histogram -/

theorem weighted_range (edges : List ℝ) (f : Nat → Nat) (g : ℝ → ℝ) :
    (List.zipWith (fun (k : Nat) (x : ℝ) => (k : ℝ) * g x) ((List.range (edges.length - 1)).map f) (centres edges)).sum =
      ((List.range (edges.length - 1)).map fun i => (f i : ℝ) * g ((centres edges).getD i 0)).sum := by
  congr 1
  apply List.ext_getElem
  · simp [centres_length]
  · intro i h1 h2
    have hi : i < (centres edges).length := by simp at h1; omega
    simp [List.getD_eq_getElem?_getD, List.getElem?_eq_getElem hi]

theorem sum_repeated (cs : List Nat) (pos : List ℝ) (g : ℝ → ℝ) :
    ((repeated cs pos).map g).sum = (List.zipWith (fun (k : Nat) (x : ℝ) => (k : ℝ) * g x) cs pos).sum := by
  unfold repeated
  induction cs generalizing pos with
  | nil => simp
  | cons c cs ih =>
    cases pos with
    | nil => simp
    | cons x pos =>
      simp only [List.zipWith_cons_cons, List.flatten_cons, List.map_append, List.sum_append, ih, List.sum_cons]
      simp

theorem length_repeated (cs : List Nat) (pos : List ℝ) (h : cs.length = pos.length) : (repeated cs pos).length = cs.sum := by
  unfold repeated
  induction cs generalizing pos with
  | nil => simp
  | cons c cs ih =>
    cases pos with
    | nil => simp at h
    | cons x pos =>
      simp only [List.zipWith_cons_cons, List.flatten_cons, List.length_append, List.length_replicate, List.sum_cons]
      rw [ih pos (by simpa using h)]

/-- C116: the mean of a histogram is the mean of the bin positions, each repeated as often as it was counted. -/
theorem C116_mean (cs : List Nat) (pos : List ℝ) (h : cs.length = pos.length) :
    meanFromHist cs pos = BTA.Spec.mean (repeated cs pos) := by
  have hl := length_repeated cs pos h
  have hs := sum_repeated cs pos id
  simp only [List.map_id, id] at hs
  unfold meanFromHist BTA.Spec.mean weighted
  by_cases h0 : cs.sum = 0
  · rw [if_pos h0, if_pos (List.length_eq_zero_iff.mp (hl.trans h0))]
  · rw [if_neg h0, if_neg (fun h1 => h0 (by rw [← hl, h1]; rfl)), hl, hs]

/-- The centre of the bin of a value. -/
noncomputable def binCentre (edges : List ℝ) (v : ℝ) : ℝ := (centres edges).getD ((binIndex edges v).getD 0) 0

theorem binCentre_close (lo hi : ℝ) (n : Nat) (hn : n ≠ 0) (hlt : lo < hi) (v : ℝ) (h1 : lo ≤ v) (h2 : v ≤ hi) :
    |binCentre (linspace lo hi n) v - v| ≤ (hi - lo) / n / 2 := by
  have hv := Purity.Props.linspace_valid lo hi n hlt (Nat.pos_of_ne_zero hn)
  obtain ⟨i, hin, hb⟩ := bin_exists _ hv lo hi v (linspace_head lo hi n) (linspace_last lo hi n hn) h1 h2
  obtain ⟨a, b, ha, hbb, hle, hor⟩ := (binIndex_iff hv v i).mp hb
  have hc := (centres_get (linspace lo hi n) i ((b + a) / 2)).mpr ⟨a, b, ha, hbb, rfl⟩
  have hl : (linspace lo hi n).length = n + 1 := by simp [linspace]
  unfold binCentre
  rw [hb, Option.getD_some, List.getD_eq_getElem?_getD, hc, Option.getD_some]
  have hab : b - a = (hi - lo) / n := by
    unfold linspace at ha hbb
    rw [List.getElem?_map, List.getElem?_range (by omega), Option.map_some, Option.some.injEq] at ha hbb
    rw [← ha, ← hbb]
    push_cast
    ring
  have hvb : v ≤ b := by
    rcases hor with h | ⟨h, -⟩
    · exact h.le
    · exact h.le
  rw [abs_le]
  constructor <;> linarith

/-- Values in a histogram with `n` bins of the same width: the histogram of all of them, with the centres of the bins. -/
theorem hist_sum (lo hi : ℝ) (n : Nat) (hn : n ≠ 0) (hlt : lo < hi) (vs : List ℝ) (hin : ∀ v ∈ vs, lo ≤ v ∧ v ≤ hi) (g : ℝ → ℝ) :
    ((repeated (histogram (linspace lo hi n) (vs.map some)) (centres (linspace lo hi n))).map g).sum =
      (vs.map fun v => g (binCentre (linspace lo hi n) v)).sum := by
  have hv := Purity.Props.linspace_valid lo hi n hlt (Nat.pos_of_ne_zero hn)
  have hf : (vs.map some).filterMap id = vs := by simp
  rw [sum_repeated]
  unfold histogram
  rw [weighted_range, hf]
  exact sum_map_range_counts _ (fun i => g ((centres (linspace lo hi n)).getD i 0)) _ vs fun v hv' => by
    obtain ⟨i, h1, h2⟩ := bin_exists _ hv lo hi v (linspace_head lo hi n) (linspace_last lo hi n hn) (hin v hv').1 (hin v hv').2
    exact ⟨i, h1, h2⟩

theorem hist_length (lo hi : ℝ) (n : Nat) (hn : n ≠ 0) (hlt : lo < hi) (vs : List ℝ) (hin : ∀ v ∈ vs, lo ≤ v ∧ v ≤ hi) :
    (histogram (linspace lo hi n) (vs.map some)).sum = vs.length := by
  have hv := Purity.Props.linspace_valid lo hi n hlt (Nat.pos_of_ne_zero hn)
  have hf : valid (vs.map some) = vs := by simp [valid]
  rw [histogram_sum _ hv, hf, List.countP_eq_length]
  intro v hv'
  obtain ⟨i, -, h2⟩ := bin_exists _ hv lo hi v (linspace_head lo hi n) (linspace_last lo hi n hn) (hin v hv').1 (hin v hv').2
  simp [h2]

/-- C116: the mean from a histogram differs from the mean of the values by at most half of the width of the bins. -/
theorem C116_mean_close (lo hi : ℝ) (n : Nat) (hn : n ≠ 0) (hlt : lo < hi) (vs : List ℝ) (hne : vs ≠ []) (hin : ∀ v ∈ vs, lo ≤ v ∧ v ≤ hi)
    (m s : ℝ) (hms : IsMeanStd vs m s) : ∃ m', meanFromHist (histogram (linspace lo hi n) (vs.map some)) (centres (linspace lo hi n)) = some m' ∧
      |m' - m| ≤ (hi - lo) / n / 2 := by
  have hl : (linspace lo hi n).length = n + 1 := by simp [linspace]
  have hlen : (histogram (linspace lo hi n) (vs.map some)).length = (centres (linspace lo hi n)).length := by
    rw [histogram_length, centres_length]
  have hrl := length_repeated _ _ hlen
  rw [hist_length lo hi n hn hlt vs hin] at hrl
  have hrn : repeated (histogram (linspace lo hi n) (vs.map some)) (centres (linspace lo hi n)) ≠ [] := fun h0 => by
    rw [h0] at hrl
    exact hne (List.length_eq_zero_iff.mp hrl.symm)
  have hsum := hist_sum lo hi n hn hlt vs hin id
  rw [List.map_id] at hsum
  rw [C116_mean _ _ hlen]
  unfold BTA.Spec.mean
  rw [if_neg hrn]
  refine ⟨_, rfl, ?_⟩
  rw [hrl, hsum, (isMeanStd_unique vs hne m s hms).1]
  have := avg_close vs hne (fun v => binCentre (linspace lo hi n) v) id ((hi - lo) / n / 2) fun v hv =>
    binCentre_close lo hi n hn hlt v (hin v hv).1 (hin v hv).2
  unfold avg at this
  rw [List.map_id] at this
  exact this

/-- C116: the standard deviation from a histogram differs from the one of the values by at most half of the width of the bins. -/
theorem C116_rms_close (lo hi : ℝ) (n : Nat) (hn : n ≠ 0) (hlt : lo < hi) (vs : List ℝ) (hne : vs ≠ []) (hin : ∀ v ∈ vs, lo ≤ v ∧ v ≤ hi)
    (m s : ℝ) (hms : IsMeanStd vs m s) : ∃ r, rmsFromHist (histogram (linspace lo hi n) (vs.map some)) (centres (linspace lo hi n)) = some r ∧
      |r - s| ≤ (hi - lo) / n / 2 := by
  have hlen : (histogram (linspace lo hi n) (vs.map some)).length = (centres (linspace lo hi n)).length := by
    rw [histogram_length, centres_length]
  have hrl := length_repeated _ _ hlen
  rw [hist_length lo hi n hn hlt vs hin] at hrl
  have hrn : repeated (histogram (linspace lo hi n) (vs.map some)) (centres (linspace lo hi n)) ≠ [] := fun h0 => by
    rw [h0] at hrl
    exact hne (List.length_eq_zero_iff.mp hrl.symm)
  have hsum := hist_sum lo hi n hn hlt vs hin
  have h1 := hsum id
  rw [List.map_id] at h1
  unfold rmsFromHist
  rw [if_neg hrn]
  refine ⟨_, rfl, ?_⟩
  have e : std (repeated (histogram (linspace lo hi n) (vs.map some)) (centres (linspace lo hi n))) =
      std (vs.map fun v => binCentre (linspace lo hi n) v) := by
    rw [std_map]
    unfold std
    rw [hrl, hsum fun v => (v - _) ^ 2, h1]
    rfl
  rw [e, (isMeanStd_unique vs hne m s hms).2]
  have := std_close vs hne (fun v => binCentre (linspace lo hi n) v) id ((hi - lo) / n / 2) fun v hv =>
    binCentre_close lo hi n hn hlt v (hin v hv).1 (hin v hv).2
  rw [List.map_id] at this
  exact this

/-- C116: an empty histogram has neither mean nor standard deviation (NaN). -/
theorem C116_empty (cs : List Nat) (pos : List ℝ) (h : cs.length = pos.length) (h0 : ∀ c ∈ cs, c = 0) :
    meanFromHist cs pos = none ∧ rmsFromHist cs pos = none := by
  have hs : cs.sum = 0 := List.sum_eq_zero h0
  have hr := length_repeated cs pos h
  rw [hs] at hr
  exact ⟨by unfold meanFromHist; rw [if_pos hs], by unfold rmsFromHist; rw [if_pos (List.length_eq_zero_iff.mp hr)]⟩

example : IsMeanStd [1, 3] 2 1 ∧ ∀ v ∈ [(1 : ℝ), 3], 0 ≤ v ∧ v ≤ 10 := by
  refine ⟨⟨by norm_num, by norm_num, by norm_num⟩, ?_⟩
  intro v hv
  simp at hv
  rcases hv with rfl | rfl <;> norm_num

end BTA.HistStat.Props
