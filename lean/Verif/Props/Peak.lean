import Verif.Lemmas.HistStat
/-
C117: the simple peak detection.
-/
namespace BTA.HistStat.Props
open BTA.HistStat

variable {K : Type} [Field K] [LinearOrder K] [IsStrictOrderedRing K]

/-- The value is at most half of the largest value. -/
def AtMostHalf (y : List K) (v : K) : Prop := ∃ t ∈ y, (∀ w ∈ y, w ≤ t) ∧ 2 * v ≤ t

theorem simplePeak_ok (x y : List K) (p : Peak K) (h : simplePeak x y = .ok p) :
    ∃ (m f l : Nat) (top : K), y[m]? = some top ∧ (∀ w ∈ y, w ≤ top) ∧ 0 < top ∧ x[m]? = some p.maxPosition ∧ m = argmax y ∧
      (changes (y.map fun v => decide (top * (1 / 2) < v)) 0).head? = some f ∧
      (changes (y.map fun v => decide (top * (1 / 2) < v)) 0).getLast? = some l ∧
      (centres x)[f]? = some p.left ∧ (centres x)[l]? = some p.right ∧ p.fwhm = p.right - p.left ∧ p.fwhm ≠ 0 ∧
      p.center = (p.left + p.right) / 2 := by
  unfold simplePeak at h
  split at h
  · cases h
  · rename_i top htop
    have hne : y ≠ [] := fun h0 => by rw [h0] at htop; simp at htop
    obtain ⟨hr, hmax⟩ := argmax_spec y hne
    have htop' : y[argmax y] = top := by
      rw [List.getElem?_eq_getElem hr] at htop
      exact Option.some.inj htop
    have hall : ∀ w ∈ y, w ≤ top := fun w hw => by
      obtain ⟨k, hk, rfl⟩ := List.mem_iff_getElem.mp hw
      rw [← htop']
      exact hmax k hk
    dsimp only at h
    split at h
    · cases h
    · rename_i hany
      have hany := not_not.mp hany
      rw [List.any_eq_true] at hany
      obtain ⟨b, hb, hb2⟩ := hany
      obtain ⟨v, hv, rfl⟩ := List.mem_map.mp hb
      have hv2 : top * (1 / 2) < v := by simpa using hb2
      have hpos : 0 < top := by
        have := hall v hv
        linarith
      split at h
      · rename_i f l hf hl
        unfold peakOf at h
        split at h
        · rename_i lc rc mc h1 h2 h3
          split at h
          · cases h
          · rename_i hne0
            injection h with h
            subst h
            exact ⟨_, f, l, top, htop, hall, hpos, h3, rfl, hf, hl, h1, h2, rfl, hne0, rfl⟩
        · cases h
      · cases h

theorem atMostHalf_iff (y : List K) (top v : K) (h1 : top ∈ y) (h2 : ∀ w ∈ y, w ≤ top) : AtMostHalf y v ↔ ¬ top * (1 / 2) < v := by
  constructor
  · rintro ⟨t, ht, hall, hv⟩ hc
    have := h2 t ht
    linarith
  · intro h
    exact ⟨top, h1, h2, by linarith [not_lt.mp h]⟩

theorem centre_between (x : List K) (hx : x.Pairwise (· < ·)) (f : Nat) (c : K) (hc : (centres x)[f]? = some c) (i : Nat) (a : K)
    (ha : x[i]? = some a) : (i ≤ f → a < c) ∧ (f + 1 ≤ i → c < a) := by
  obtain ⟨u, v, hu, hv, rfl⟩ := (centres_get x f c).mp hc
  obtain ⟨hi, rfl⟩ := List.getElem?_eq_some_iff.mp ha
  obtain ⟨hf, rfl⟩ := List.getElem?_eq_some_iff.mp hu
  obtain ⟨hf1, rfl⟩ := List.getElem?_eq_some_iff.mp hv
  have mono : ∀ (i j : Nat) (hi : i < x.length) (hj : j < x.length), i ≤ j → x[i] ≤ x[j] := by
    intro i j hi hj hij
    rcases Nat.lt_or_eq_of_le hij with h | h
    · exact (List.pairwise_iff_getElem.mp hx i j hi hj h).le
    · subst h; exact le_rfl
  have hlt := List.pairwise_iff_getElem.mp hx f (f + 1) hf hf1 (by omega)
  constructor
  · intro hle
    have := mono i f hi hf hle
    linarith
  · intro hle
    have := mono (f + 1) i hf1 hi hle
    linarith

/-- C117, true part: if the histogram is at most half of the maximum at both ends, the position of the maximum and all positions with more than
half of the maximum are between the two limits. Missing: histograms that exceed half of the maximum at an end; an exception is intended, but
see `C117_border`. -/
theorem C117_partial (x y : List K) (hx : x.Pairwise (· < ·)) (hlen : x.length = y.length) (first last : K)
    (hfirst : y.head? = some first) (hlast : y.getLast? = some last) (h1 : AtMostHalf y first) (h2 : AtMostHalf y last) (p : Peak K)
    (h : simplePeak x y = .ok p) :
    (∃ (i : Nat) (t : K), x[i]? = some p.maxPosition ∧ y[i]? = some t ∧ ∀ w ∈ y, w ≤ t) ∧
    p.left < p.maxPosition ∧ p.maxPosition < p.right ∧
    (∀ (i : Nat) (a b : K), x[i]? = some a → y[i]? = some b → ¬ AtMostHalf y b → p.left < a ∧ a < p.right) ∧
    p.center = (p.left + p.right) / 2 ∧ p.fwhm = p.right - p.left ∧ 0 < p.fwhm := by
  obtain ⟨m, f, l, top, htop, hall, hpos, hmax, -, hf, hl, hcl, hcr, hw, -, hc⟩ := simplePeak_ok x y p h
  have hmem := List.mem_of_getElem? htop
  have hiff := fun v => atMostHalf_iff y top v hmem hall
  set g := y.map fun v => decide (top * (1 / 2) < v) with hg
  obtain ⟨jf, rfl, hf1, hf2, hf3⟩ := changes_head g 0 f hf
  obtain ⟨jl, rfl, hl1, hl2, hl3⟩ := changes_last g 0 l hl
  rw [Nat.zero_add] at hcl hcr
  have hgl : g.length = y.length := by rw [hg, List.length_map]
  have hgi : ∀ (i : Nat) (b : K), y[i]? = some b → g[i]? = some (decide (top * (1 / 2) < b)) := by
    intro i b hb
    rw [hg, List.getElem?_map, hb]
    rfl
  have hg0 : g[0]? = some false := by
    have := hgi 0 first (by rw [← List.head?_eq_getElem?]; exact hfirst)
    rw [this]
    simpa using (hiff first).mp h1
  have hgn : g[g.length - 1]? = some false := by
    have := hgi (y.length - 1) last (by rw [← List.getLast?_eq_getElem?]; exact hlast)
    rw [hgl, this]
    simpa using (hiff last).mp h2
  have key : ∀ (i : Nat) (a b : K), x[i]? = some a → y[i]? = some b → ¬ AtMostHalf y b → p.left < a ∧ a < p.right := by
    intro i a b ha hb hnot
    have htrue : g[i]? = some true := by
      rw [hgi i b hb]
      simpa using not_not.mp (mt (hiff b).mpr hnot)
    have hi : i < g.length := (List.getElem?_eq_some_iff.mp htrue).1
    have hfi : jf + 1 ≤ i := by
      by_contra hc
      have := hf3 i (by omega)
      rw [htrue, hg0] at this
      cases this
    have hil : i ≤ jl := by
      by_contra hc
      have := hl3 i (by omega) hi
      rw [htrue, hgn] at this
      cases this
    exact ⟨(centre_between x hx jf _ hcl i a ha).2 hfi, (centre_between x hx jl _ hcr i a ha).1 hil⟩
  have hm : p.left < p.maxPosition ∧ p.maxPosition < p.right := key m _ top hmax htop (by
    rw [hiff top, not_not]
    linarith)
  exact ⟨⟨m, top, hmax, htop, hall⟩, hm.1, hm.2, key, hc, hw, by rw [hw]; linarith [hm.1, hm.2]⟩

/-- C117: a histogram that is not zero and at most half of the maximum at both ends has a peak. -/
theorem C117_succeeds (x y : List K) (hx : x.Pairwise (· < ·)) (hlen : x.length = y.length) (first last : K)
    (hfirst : y.head? = some first) (hlast : y.getLast? = some last) (h1 : AtMostHalf y first) (h2 : AtMostHalf y last)
    (hpos : ∃ v ∈ y, 0 < v) : ∃ p, simplePeak x y = .ok p := by
  have hne : y ≠ [] := fun h0 => by rw [h0] at hfirst; cases hfirst
  obtain ⟨hr, hmax⟩ := argmax_spec y hne
  set top := y[argmax y] with htop
  have hall : ∀ w ∈ y, w ≤ top := fun w hw => by
    obtain ⟨k, hk, rfl⟩ := List.mem_iff_getElem.mp hw
    exact hmax k hk
  have hmem : top ∈ y := List.getElem_mem hr
  have hiff := fun v => atMostHalf_iff y top v hmem hall
  obtain ⟨v, hv, hv0⟩ := hpos
  have htpos : 0 < top := lt_of_lt_of_le hv0 (hall v hv)
  unfold simplePeak
  rw [List.getElem?_eq_getElem hr]
  dsimp only
  rw [← htop]
  set g := y.map fun v => decide (top * (1 / 2) < v) with hg
  have hgl : g.length = y.length := by rw [hg, List.length_map]
  have hgi : ∀ (i : Nat) (b : K), y[i]? = some b → g[i]? = some (decide (top * (1 / 2) < b)) := by
    intro i b hb
    rw [hg, List.getElem?_map, hb]
    rfl
  have htg : g[argmax y]? = some true := by
    rw [hgi _ top (List.getElem?_eq_getElem hr)]
    have : top * (1 / 2) < top := by linarith
    simp only [this, decide_true]
  have hg0 : g[0]? = some false := by
    rw [hgi 0 first (by rw [← List.head?_eq_getElem?]; exact hfirst)]
    simpa using (hiff first).mp h1
  have hgn : g[g.length - 1]? = some false := by
    rw [hgl, hgi (y.length - 1) last (by rw [← List.getLast?_eq_getElem?]; exact hlast)]
    simpa using (hiff last).mp h2
  have hany : g.any id := List.any_eq_true.mpr ⟨true, List.mem_of_getElem? htg, rfl⟩
  rw [if_neg (not_not.mpr hany)]
  cases hc : changes g 0 with
  | nil =>
    have := changes_nil g 0 hc (argmax y) (by rw [hgl]; exact hr)
    rw [htg, hg0] at this
    cases this
  | cons f fs =>
    obtain ⟨l, hl⟩ : ∃ l, (f :: fs).getLast? = some l := ⟨_, List.getLast?_eq_some_getLast (by simp)⟩
    rw [List.head?_cons, hl]
    dsimp only
    obtain ⟨jf, e1, hf1, -, hf3⟩ := changes_head g 0 f (by rw [hc]; rfl)
    obtain ⟨jl, e2, hl1, -, hl3⟩ := changes_last g 0 l (by rw [hc]; exact hl)
    rw [Nat.zero_add] at e1 e2
    subst e1 e2
    have hfm : f + 1 ≤ argmax y := by
      by_contra hcon
      have := hf3 (argmax y) (by omega)
      rw [htg, hg0] at this
      cases this
    have hml : argmax y ≤ l := by
      by_contra hcon
      have := hl3 (argmax y) (by omega) (by rw [hgl]; exact hr)
      rw [htg, hgn] at this
      cases this
    have hcf : f < (centres x).length := by rw [centres_length, hlen]; omega
    have hcl : l < (centres x).length := by rw [centres_length, hlen]; omega
    have hxm : argmax y < x.length := by rw [hlen]; exact hr
    unfold peakOf
    rw [List.getElem?_eq_getElem hcf, List.getElem?_eq_getElem hcl, List.getElem?_eq_getElem hxm]
    dsimp only
    have b1 := (centre_between x hx f _ (List.getElem?_eq_getElem hcf) _ _ (List.getElem?_eq_getElem hxm)).2 hfm
    have b2 := (centre_between x hx l _ (List.getElem?_eq_getElem hcl) _ _ (List.getElem?_eq_getElem hxm)).1 hml
    rw [if_neg (by linarith [b1, b2] : ¬ _ = _) ]
    exact ⟨_, rfl⟩

/-- C117, the claim is false for a peak at the border: if the first value is the largest one and the function succeeds, the position of the maximum
is outside of the limits. -/
theorem C117_border (x y : List K) (hx : x.Pairwise (· < ·)) (top : K) (hfirst : y.head? = some top) (hmax : ∀ w ∈ y, w ≤ top) (p : Peak K)
    (h : simplePeak x y = .ok p) : p.maxPosition < p.left := by
  obtain ⟨m, f, l, t, htop, hall, hpos, hpm, hm, hf, -, hcl, -⟩ := simplePeak_ok x y p h
  have hm0 : m = 0 := by
    rw [hm]
    cases y with
    | nil => rfl
    | cons z zs =>
      rw [List.head?_cons, Option.some.injEq] at hfirst
      subst hfirst
      have : ∀ (zs : List K) (i : Nat), (∀ w ∈ zs, w ≤ z) → argmaxFrom zs i 0 z = 0 := by
        intro zs
        induction zs with
        | nil => intros; rfl
        | cons w zs ih =>
          intro i hw
          unfold argmaxFrom
          rw [if_neg (not_lt.mpr (hw w List.mem_cons_self))]
          exact ih (i + 1) fun v hv => hw v (List.mem_cons_of_mem _ hv)
      exact this zs 1 fun w hw => hmax w (List.mem_cons_of_mem _ hw)
  subst hm0
  exact (centre_between x hx f _ hcl 0 _ hpm).1 (by omega)

/-- A peak in the middle, and one at both borders: no exception, the limits are those of the valley. -/
example : simplePeak [(0 : ℚ), 1, 2, 3, 4] [1, 7, 10, 6, 0] = .ok ⟨2, 2, 3, 1 / 2, 7 / 2⟩ := by
  decide +kernel

example : simplePeak [(0 : ℚ), 1, 2, 3] [10, 1, 1, 10] = .ok ⟨0, 3 / 2, 2, 1 / 2, 5 / 2⟩ := by
  decide +kernel

end BTA.HistStat.Props
