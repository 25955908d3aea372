import Verif.Lemmas.Efficiency
import Mathlib.Data.Rat.Floor
import Mathlib.Algebra.Order.Ring.Rat
import Mathlib.Tactic.NormNum

/-! Properties C45 (efficiency) and C44 (means in the efficiency analysis). -/

namespace BTA.Efficiency.Props
open BTA.Binning BTA.Spec BTA.Efficiency BTA.Efficiency.Spec

variable {K : Type} [Field K] [LinearOrder K] [IsStrictOrderedRing K]

omit [IsStrictOrderedRing K] in
theorem percent_eq (k n : Nat) : (percent k n : Option K) = ratio k n := by
  unfold percent ratio
  split
  · rfl
  · congr 1; ring

omit [IsStrictOrderedRing K] in
theorem number_mono {ρ : Type} (T : List ρ) (P Q : ρ → Prop) (h : ∀ r, P r → Q r) : number T P ≤ number T Q := by
  classical
  unfold number
  rw [← List.countP_eq_length_filter, ← List.countP_eq_length_filter]
  apply List.countP_mono_left
  intro r _ hr
  simp only [decide_eq_true_eq] at hr ⊢
  exact h r hr

omit [IsStrictOrderedRing K] in
theorem number_pos_iff {ρ : Type} (T : List ρ) (P : ρ → Prop) : 0 < number T P ↔ ∃ r ∈ T, P r := by
  unfold number
  rw [List.length_pos_iff_exists_mem]
  simp [List.mem_filter]

/-- An efficiency from matching counts is between 0 and 100 %. -/
theorem ratio_bounds {k n : Nat} (h : k ≤ n) {x : K} (hx : ratio k n = some x) : 0 ≤ x ∧ x ≤ 100 := by
  unfold ratio at hx
  split at hx
  · simp at hx
  · next h0 =>
    simp only [Option.some.injEq] at hx
    subst hx
    have hn : (0 : K) < n := by exact_mod_cast Nat.pos_of_ne_zero h0
    have hk : (k : K) ≤ n := by exact_mod_cast h
    constructor
    · positivity
    · rw [div_le_iff₀ hn]; nlinarith

/-- A filled state gives the right output. -/
theorem correct_of_filled {s : Setup K} {T : List (Row K)} {st : State K} {o : Output K} (hx : ValidEdges s.edgesX)
    (hy : ValidEdges s.edgesY) (hf : Filled s (prepare s T) st) (h : finish s st = .ok o) : Correct s T o := by
  obtain ⟨sh, h1, h2, h3, h4, h5, -, -, h8, -, -⟩ := finish_ok h
  rw [hf.tracks] at h1
  rw [hf.hits] at h2
  simp only [Option.some.injEq, Prod.mk.injEq] at h1 h2
  obtain ⟨rfl, ht⟩ := h1
  have e1 : ∀ i j, o.tracks (i, j) = number T fun r => Used s r ∧ TrackIn s i j r := by
    intro i j
    rw [← ht, counts_eq_length]
    apply number_prepare
    intro r _
    rw [decide_eq_true_iff, trackBin_iff s hx hy]
  have e2 : ∀ i j, o.hits.withHit (i, j) = number T fun r => Used s r ∧ TrackIn s i j r ∧ Matched s r := by
    intro i j
    rw [← h2]
    show counts _ _ _ = _
    rw [counts_eq_length, List.filter_filter]
    apply number_prepare
    intro r _
    rw [Bool.and_eq_true, decide_eq_true_iff, trackBin_iff s hx hy, validHit_iff]
  have e3 : ∀ i j, o.hits.countHits (i, j) = number T fun r => Used s r ∧ HitIn s i j r ∧ Matched s r := by
    intro i j
    rw [← h2]
    show counts _ _ _ = _
    rw [counts_eq_length, List.filter_filter]
    apply number_prepare
    intro r _
    rw [Bool.and_eq_true, decide_eq_true_iff, hitBin_iff s hx hy, validHit_iff]
  have e4 : total s.shape o.tracks = number T fun r => Used s r ∧ ∃ i j, TrackIn s i j r := by
    rw [← ht, total_counts _ _ (fun r b => trackBin_bound s hx hy r b)]
    apply number_prepare
    intro r _
    rw [Option.isSome_iff_exists]
    constructor
    · rintro ⟨⟨i, j⟩, h⟩; exact ⟨i, j, (trackBin_iff s hx hy r i j).mp h⟩
    · rintro ⟨i, j, h⟩; exact ⟨(i, j), (trackBin_iff s hx hy r i j).mpr h⟩
  have e5 : total s.shape o.hits.withHit = number T fun r => Used s r ∧ (∃ i j, TrackIn s i j r) ∧ Matched s r := by
    rw [← h2]
    show total s.shape (counts _ _) = _
    rw [total_counts _ _ (fun r b => trackBin_bound s hx hy r b), List.filter_filter]
    apply number_prepare
    intro r _
    rw [Bool.and_eq_true, validHit_iff, Option.isSome_iff_exists]
    apply and_congr_left'
    constructor
    · rintro ⟨⟨i, j⟩, h⟩; exact ⟨i, j, (trackBin_iff s hx hy r i j).mp h⟩
    · rintro ⟨i, j, h⟩; exact ⟨(i, j), (trackBin_iff s hx hy r i j).mpr h⟩
  rw [e4, e5] at h8
  unfold meanEfficiency at h8
  split at h8
  · simp at h8
  next hN =>
  simp only [Except.ok.injEq] at h8
  refine ⟨e1, e2, e3, ?_, ?_, ?_, h8.symm, fun h0 => hN (.inl h0)⟩
  · intro q i j
    have hfm := final_eq_mean (trackBin s) (value s q) ((prepare s T).filter (validHit s)) (i, j)
    rw [List.filter_filter] at hfm
    rw [values_prepare s T _ _ (quantity s q) (fun r => TrackIn s i j r ∧ Matched s r)] at hfm
    · rw [← hfm, ← h2]
      show binMean _ _ _ _ = _
      split
      · next h0 => simp only [Option.getD_none]; simp [binMean, (counts_eq_zero_iff _ _ _).mp h0]
      · rfl
    · intro r _
      refine ⟨?_, fun hq => value_eq s q r hq.2⟩
      rw [Bool.and_eq_true, decide_eq_true_iff, trackBin_iff s hx hy, validHit_iff]
  · intro i j
    rw [h4, ← e1, ← e2]; exact percent_eq _ _
  · intro i j
    rw [h5, ← e1]
    simp [masked]

/-- The first chunk of the table has a track with a close hit. -/
def HitInFirstChunk (s : Setup K) (T : List (Row K)) (cs : Nat) : Prop :=
  ∃ c ∈ (dataAligned Row.event T { chunkSize := cs }).items.head?, ∃ r ∈ c.1, Used s r ∧ Matched s r

theorem valid_ne_nil_iff (s : Setup K) (c : List (Row K)) :
    (prepare s c).filter (validHit s) ≠ [] ↔ ∃ r ∈ c, Used s r ∧ Matched s r := by
  rw [← List.length_pos_iff, number_prepare s c (validHit s) (Matched s) (fun r _ => validHit_iff s r), number_pos_iff]

/-- C45 for any selected DUT (whatever the DUTs before it have left behind): if the first chunk of its track table has a
track with a close hit and `calculate_efficiency` succeeds, all histograms, means and efficiencies are those of the
complete table, for every chunk size.

Partial: without a close hit in the first chunk it is wrong, see `C45_stale`, `C45_stale_example`. -/
theorem C45_any_dut_partial (s : Setup K) (T : List (Row K)) (hs : SortedBy Row.event T) (cs : Nat) (hcs : 0 < cs)
    (hx : ValidEdges s.edgesX) (hy : ValidEdges s.edgesY) (sc sc' : Scope K) (o : Output K)
    (hfirst : HitInFirstChunk s T cs) (h : dutEfficiency s T cs sc = .ok (o, sc')) : Correct s T o := by
  obtain ⟨hfl, st, hl, hfin, -⟩ := dut_ok hs hcs h
  obtain ⟨c, hc, hr⟩ := hfirst
  cases hi : (dataAligned Row.event T { chunkSize := cs }).items with
  | nil => rw [hi] at hc; simp at hc
  | cons c' rest =>
    rw [hi] at hc
    simp only [List.head?_cons, Option.mem_def, Option.some.injEq] at hc
    subst hc
    have hch : chunksOf T cs = c'.1 :: rest.map Prod.fst := by rw [chunksOf, hi]; rfl
    rw [hch] at hl hfl
    rw [chunkLoop] at hl
    cases hstep : stepChunk s c'.1 (start s sc) with
    | error e => simp [hstep] at hl
    | ok st1 =>
      rw [hstep] at hl
      have hf := filled_loop (filled_first (s := s) (st := start s sc) rfl ((valid_ne_nil_iff s c'.1).mpr hr) hstep) hl
      rw [← prepare_append, ← List.flatten_cons, hfl] at hf
      exact correct_of_filled hx hy hf hfin

/-- C45, error branch: if nothing has been left behind by an earlier DUT and the first chunk has no track with close hit, the
call fails (UnboundLocalError, or another exception), although later chunks may have hits. -/
theorem C45_first_chunk_without_hit (s : Setup K) (T : List (Row K)) (hs : SortedBy Row.event T) (cs : Nat) (hcs : 0 < cs)
    (sc : Scope K) (hsc : sc.hits = none) (hfirst : ¬ HitInFirstChunk s T cs) (r : Output K × Scope K) :
    dutEfficiency s T cs sc ≠ .ok r := by
  intro h
  obtain ⟨o, sc'⟩ := r
  obtain ⟨hfl, st, hl, hfin, -⟩ := dut_ok hs hcs h
  obtain ⟨sh, -, hhits, -⟩ := finish_ok hfin
  have hnone : st.scope.hits = none := by
    cases hi : (dataAligned Row.event T { chunkSize := cs }).items with
    | nil =>
      have hch : chunksOf T cs = [] := by rw [chunksOf, hi]; rfl
      rw [hch, chunkLoop] at hl
      simp only [Except.ok.injEq] at hl
      rw [← hl]; exact hsc
    | cons c' rest =>
      have hch : chunksOf T cs = c'.1 :: rest.map Prod.fst := by rw [chunksOf, hi]; rfl
      rw [hch, chunkLoop] at hl
      cases hstep : stepChunk s c'.1 (start s sc) with
      | error e => simp [hstep] at hl
      | ok st1 =>
        rw [hstep] at hl
        obtain ⟨h1, -, h3⟩ := tracks_first (st := start s sc) rfl hstep
        have hv : (prepare s c'.1).filter (validHit s) = [] := by
          by_contra hne
          exact hfirst ⟨c', by rw [hi]; rfl, (valid_ne_nil_iff s c'.1).mp hne⟩
        rw [if_pos hv] at h3
        exact hits_none_loop h1 (h3.trans hsc) hl
  rw [hnone] at hhits
  simp at hhits

/-- C45 for the first selected DUT: whenever the call succeeds, everything is right, for every chunk size. -/
theorem C45_first_dut (s : Setup K) (T : List (Row K)) (hs : SortedBy Row.event T) (cs : Nat) (hcs : 0 < cs)
    (hx : ValidEdges s.edgesX) (hy : ValidEdges s.edgesY) (rest : List (Setup K × List (Row K))) (os : List (Output K))
    (h : efficiency cs ((s, T) :: rest) = .ok os) : ∃ o, os.head? = some o ∧ Correct s T o := by
  unfold efficiency at h
  rw [efficiencyLoop] at h
  cases h1 : dutEfficiency s T cs ⟨none, none⟩ with
  | error e => simp [h1] at h
  | ok r =>
    obtain ⟨o, sc'⟩ := r
    rw [h1] at h
    dsimp only at h
    split at h
    · simp at h
    · simp only [Except.ok.injEq] at h
      subst h
      refine ⟨o, rfl, ?_⟩
      by_cases hf : HitInFirstChunk s T cs
      · exact C45_any_dut_partial s T hs cs hcs hx hy _ _ o hf h1
      · exact absurd h1 (C45_first_chunk_without_hit s T hs cs hcs _ rfl hf _)

/-- C45: efficiencies are between 0 and 100 %, undefined exactly in bins without track. -/
theorem C45_bounds (s : Setup K) (T : List (Row K)) (o : Output K) (h : Correct s T o) (i j : Nat) :
    (o.efficiency (i, j) = none ↔ ∀ r ∈ T, ¬ (Used s r ∧ TrackIn s i j r)) ∧
    (∀ x, o.efficiency (i, j) = some x → 0 ≤ x ∧ x ≤ 100) ∧ 0 ≤ o.mean ∧ o.mean ≤ 1 := by
  classical
  rw [h.efficiency]
  refine ⟨?_, ?_, ?_⟩
  · unfold ratio
    rw [ite_eq_left_iff]
    simp only [reduceCtorEq, imp_false, not_not]
    unfold number
    rw [List.length_eq_zero_iff, List.filter_eq_nil_iff]
    simp
  · intro x hx
    exact ratio_bounds (number_mono T _ _ fun r hr => ⟨hr.1, hr.2.1⟩) hx
  · rw [h.mean]
    have hle := number_mono T (fun r => Used s r ∧ (∃ i j, TrackIn s i j r) ∧ Matched s r)
      (fun r => Used s r ∧ ∃ i j, TrackIn s i j r) fun r hr => ⟨hr.1, hr.2.1⟩
    have hN := h.some_track
    have hn : (0 : K) < (number T fun r => Used s r ∧ ∃ i j, TrackIn s i j r : Nat) := by
      exact_mod_cast Nat.pos_of_ne_zero hN
    constructor
    · positivity
    · rw [div_le_one hn]; exact_mod_cast hle

/-- C45 for the pixels, for every DUT whenever the call succeeds: efficiency of the tracks whose closest pixel is `p`. -/
theorem C45_pixels (s : Setup K) (T : List (Row K)) (hs : SortedBy Row.event T) (cs : Nat) (hcs : 0 < cs) (sc sc' : Scope K)
    (o : Output K) (h : dutEfficiency s T cs sc = .ok (o, sc')) (p : Nat) (hp : p < s.nPixels) :
    let At := fun r => s.nearest (posX s r) (posY s r) = p
    o.pixelEfficiency p = ratio (number T fun r => Used s r ∧ At r ∧ Matched s r) (number T fun r => Used s r ∧ At r) ∧
    (o.pixelMask p = true ↔ ((number T fun r => Used s r ∧ At r : Nat) : K) < s.minimumTrackDensity) ∧
    (∀ x, o.pixelEfficiency p = some x → 0 ≤ x ∧ x ≤ 100) := by
  intro At
  obtain ⟨hfl, st, hl, hfin, -⟩ := dut_ok hs hcs h
  obtain ⟨-, -, -, -, -, -, h6, h7, -⟩ := finish_ok hfin
  obtain ⟨hc, -⟩ := counted_loop (counted_init s sc) hl
  rw [hfl, List.nil_append] at hc
  have e1 : st.pixelTracks p = number T fun r => Used s r ∧ At r := by
    rw [hc.pixelTracks, pixelCounts, counts_eq_length]
    apply number_prepare
    intro r _
    rw [decide_eq_true_iff]
    show (if s.nearest (posX s r) (posY s r) < s.nPixels then some (s.nearest (posX s r) (posY s r)) else none) = some p ↔ _
    constructor
    · intro h; split at h
      · exact Option.some.inj h
      · simp at h
    · intro h
      have h' : s.nearest (posX s r) (posY s r) = p := h
      rw [h', if_pos hp]
  have e2 : st.pixelHits p = number T fun r => Used s r ∧ At r ∧ Matched s r := by
    rw [hc.pixelHits, pixelCounts, counts_eq_length, List.filter_filter]
    apply number_prepare
    intro r _
    rw [Bool.and_eq_true, decide_eq_true_iff, validHit_iff]
    apply and_congr_left'
    show (if s.nearest (posX s r) (posY s r) < s.nPixels then some (s.nearest (posX s r) (posY s r)) else none) = some p ↔ _
    constructor
    · intro h; split at h
      · exact Option.some.inj h
      · simp at h
    · intro h
      have h' : s.nearest (posX s r) (posY s r) = p := h
      rw [h', if_pos hp]
  have h6' : o.pixelEfficiency p = percent (st.pixelHits p) (st.pixelTracks p) := by rw [h6]
  refine ⟨by rw [h6', e1, e2, percent_eq], by rw [h7]; simp [masked, e1], ?_⟩
  intro x hx
  rw [h6', e1, e2, percent_eq] at hx
  exact ratio_bounds (number_mono T _ _ fun r hr => ⟨hr.1, hr.2.1⟩) hx

/-- C45 for the regions, for every DUT whenever the call succeeds: tracks in the region with close hit over tracks in the region,
accumulated over all chunks; and every chunk has a track in every region. -/
theorem C45_regions (s : Setup K) (T : List (Row K)) (hs : SortedBy Row.event T) (cs : Nat) (hcs : 0 < cs) (sc sc' : Scope K)
    (o : Output K) (h : dutEfficiency s T cs sc = .ok (o, sc')) (hT : T ≠ []) (k : Nat) (g : Region K)
    (hg : s.regions[k]? = some g) :
    o.regionEfficiency[k]? = some
      (((number T fun r => Used s r ∧ InRegion s g r ∧ Matched s r : Nat) : K) /
        ((number T fun r => Used s r ∧ InRegion s g r : Nat) : K)) ∧
    0 < number T (fun r => Used s r ∧ InRegion s g r) ∧
    ∀ c ∈ (dataAligned Row.event T { chunkSize := cs }).items, ∃ r ∈ c.1, Used s r ∧ InRegion s g r := by
  classical
  obtain ⟨hfl, st, hl, hfin, -⟩ := dut_ok hs hcs h
  obtain ⟨-, -, -, -, -, -, -, -, -, h9, -⟩ := finish_ok hfin
  obtain ⟨hc, hne⟩ := counted_loop (counted_init s sc) hl
  rw [hfl, List.nil_append] at hc
  have hgm : g ∈ s.regions := List.mem_of_getElem? hg
  have hex : ∀ c : List (Row K), (prepare s c).filter (inRegion g) ≠ [] → ∃ r ∈ c, Used s r ∧ InRegion s g r := by
    intro c hc'
    rwa [← List.length_pos_iff, number_prepare s c (inRegion g) (InRegion s g) (fun r _ => inRegion_iff s g r),
      number_pos_iff] at hc'
  have hlast : ∀ c ∈ (dataAligned Row.event T { chunkSize := cs }).items, ∃ r ∈ c.1, Used s r ∧ InRegion s g r := by
    intro c hcm
    exact hex _ (hne c.1 (List.mem_map_of_mem hcm) g hgm)
  have hpos : 0 < number T (fun r => Used s r ∧ InRegion s g r) := by
    have : chunksOf T cs ≠ [] := by
      intro h0; rw [h0] at hfl; exact hT hfl.symm
    obtain ⟨c, hcm⟩ := List.exists_mem_of_ne_nil _ this
    obtain ⟨r, hr, hr2⟩ := hex c (hne c hcm g hgm)
    rw [number_pos_iff]
    exact ⟨r, by rw [← hfl]; exact List.mem_flatten.mpr ⟨c, hcm, hr⟩, hr2⟩
  refine ⟨?_, hpos, hlast⟩
  have hlen := hc.regions.length_eq
  have hk : k < s.regions.length := (List.getElem?_eq_some_iff.mp hg).1
  have hk2 : k < st.regions.length := by omega
  have hrf := List.Forall₂.get hc.regions hk hk2
  have hge : s.regions.get ⟨k, hk⟩ = g := (List.getElem?_eq_some_iff.mp hg).2
  rw [hge] at hrf
  rw [h9, List.getElem?_map, List.getElem?_eq_getElem hk2, Option.map_some, Option.some.injEq]
  have es : (st.regions[k]).stat = number T (fun r => Used s r ∧ InRegion s g r) := by
    refine hrf.stat.trans ?_
    exact number_prepare s T (inRegion g) (InRegion s g) (fun r _ => inRegion_iff s g r)
  have ee : (st.regions[k]).efficiency * (st.regions[k]).stat =
      ((number T fun r => Used s r ∧ InRegion s g r ∧ Matched s r : Nat) : K) := by
    refine hrf.efficiency.trans ?_
    congr 1
    rw [List.filter_filter]
    have := number_prepare s T (fun r => validHit s r && inRegion g r) (fun r => InRegion s g r ∧ Matched s r) (by
      intro r _
      rw [Bool.and_eq_true, validHit_iff, inRegion_iff, and_comm])
    exact this
  rw [es] at ee
  rw [← ee, mul_div_cancel_right₀]
  exact_mod_cast hpos.ne'

/-- C45, error branch: a chunk without any track in a region makes the whole call fail (ZeroDivisionError, unless another
exception comes first). -/
theorem C45_region_without_track (s : Setup K) (T : List (Row K)) (hs : SortedBy Row.event T) (cs : Nat) (hcs : 0 < cs)
    (sc : Scope K) (g : Region K) (hg : g ∈ s.regions) (c : List (Row K) × Nat)
    (hc : c ∈ (dataAligned Row.event T { chunkSize := cs }).items) (hno : ∀ r ∈ c.1, ¬ (Used s r ∧ InRegion s g r))
    (res : Output K × Scope K) : dutEfficiency s T cs sc ≠ .ok res := by
  intro h
  obtain ⟨o, sc'⟩ := res
  have hT : T ≠ [] := by
    intro h0
    subst h0
    have : (dataAligned Row.event ([] : List (Row K)) { chunkSize := cs }).rows = [] := by
      obtain ⟨⟨rest, h1⟩, -⟩ := BTA.Props.C01_no_loss (T := ([] : List (Row K))) hs cs hcs
      have := List.append_eq_nil_iff.mp h1.symm
      exact this.1
    have hne := (BTA.Props.C02_chunks_aligned (T := ([] : List (Row K))) hs { chunkSize := cs } hcs rfl (by simp) c.1 c.2 hc).1
    rw [Gen.rows, List.flatMap_eq_nil_iff] at this
    exact hne (this c hc)
  obtain ⟨k, hk⟩ := List.mem_iff_getElem?.mp hg
  obtain ⟨-, -, h3⟩ := C45_regions s T hs cs hcs sc sc' o h hT k g hk
  obtain ⟨r, hr, hr2⟩ := h3 c hc
  exact hno r hr hr2

/-- C45, negation for later DUTs: if no track of the DUT has a close hit, the histograms of the tracks with hit are those
which the previous DUT has left behind. -/
theorem C45_stale (s : Setup K) (T : List (Row K)) (hs : SortedBy Row.event T) (cs : Nat) (hcs : 0 < cs) (sc sc' : Scope K)
    (o : Output K) (hno : ∀ r ∈ T, ¬ (Used s r ∧ Matched s r)) (h : dutEfficiency s T cs sc = .ok (o, sc')) :
    sc.hits = some o.hits ∧ ∀ b, o.efficiency b = ratio (o.hits.withHit b) (o.tracks b) := by
  obtain ⟨hfl, st, hl, hfin, -⟩ := dut_ok hs hcs h
  obtain ⟨sh, -, hhits, -, h4, -⟩ := finish_ok hfin
  have hsame := hits_same_loop (st := start s sc) (cs := chunksOf T cs) (by
    intro c hc
    by_contra hne
    obtain ⟨r, hr, hr2⟩ := (valid_ne_nil_iff s c).mp hne
    exact hno r (by rw [← hfl]; exact List.mem_flatten.mpr ⟨c, hc, hr⟩) hr2) hl
  refine ⟨?_, ?_⟩
  · rw [← hhits, hsame]; rfl
  · intro b; rw [h4]; exact percent_eq _ _

/-! ### Concrete cases -/

/-- A DUT with 2 x 1 pixels of size 10, one region on the first pixel, cut of 2 in both directions (rectangle). -/
def setup : Setup ℚ where
  edgesX := [0, 10, 20]
  edgesY := [0, 10]
  pixelSize := (10, 10)
  cut := (some 2, some 2)
  offset := (0, 0)
  enabled _ _ := true
  nearest x _ := if x < 10 then 0 else 1
  nPixels := 2
  regions := []
  minimumTrackDensity := 1
  sqrt v := v

/-- A track at (x, 5) with a hit at distance `d` in x, or without hit. -/
def trk (e : Int) (x : ℚ) (d : Option ℚ) : Row ℚ :=
  ⟨e, d.map fun d => (x + d, 5), x, 5, 3, 1, 2, 0, 0, 0⟩

/-- Tracks in both pixels: two with a close hit in the first pixel, one too far, one without hit; one with hit in the second. -/
def tableA : List (Row ℚ) :=
  [trk 1 4 (some 1), trk 1 5 (some (-1)), trk 2 6 (some 3), trk 3 7 none, trk 4 15 (some 0), trk 5 16 none]

/-- No hit at all, one track in the first pixel and five in the second. -/
def tableB : List (Row ℚ) :=
  [trk 1 4 none, trk 2 15 none, trk 3 15 none, trk 4 15 none, trk 5 15 none, trk 6 15 none]

/-- The hypotheses of the positive theorems are met: efficiencies 50 % and 50 %. -/
example : SortedBy Row.event tableA ∧ ValidEdges setup.edgesX ∧ ValidEdges setup.edgesY ∧
    (∀ cs ∈ [3, 100], (efficiency cs [(setup, tableA)]).toOption.map (fun os => os.map fun o =>
      [o.efficiency (0, 0), o.efficiency (1, 0), some o.mean, o.pixelEfficiency 0, some (o.hits.means .charge (0, 0))]) =
      some [[some 50, some 50, some (1 / 2), some 50, some 3]]) := by
  refine ⟨by unfold SortedBy; decide +kernel, by unfold ValidEdges; decide +kernel, by unfold ValidEdges; decide +kernel,
    by decide +kernel⟩

/-- C45, negation: an efficiency of 200 % in a DUT without any hit, because the number of tracks with hit is the one of the DUT
before. -/
theorem C45_stale_example : ∃ o o', efficiency 100 [(setup, tableA), (setup, tableB)] = .ok [o, o'] ∧
    (∀ r ∈ tableB, r.hit = none) ∧ o'.efficiency (0, 0) = some 200 := by
  have h : (efficiency 100 [(setup, tableA), (setup, tableB)]).toOption.map
      (fun os => (os.length, os.getLast?.map fun o => o.efficiency (0, 0))) = some (2, some (some 200)) := by decide +kernel
  cases he : efficiency 100 [(setup, tableA), (setup, tableB)] with
  | error e => rw [he] at h; simp [Except.toOption] at h
  | ok os =>
    rw [he] at h
    simp only [Except.toOption, Option.map_some, Option.some.injEq, Prod.mk.injEq] at h
    obtain ⟨h1, h2⟩ := h
    match os, h1 with
    | [o, o'], _ =>
      refine ⟨o, o', rfl, by decide +kernel, ?_⟩
      simpa using h2

/-- C45, negation: the same call for the second DUT alone raises UnboundLocalError. -/
example : (efficiency 100 [(setup, tableB)]).toOption.isNone ∧ (∀ r ∈ tableB, r.hit = none) := by
  decide +kernel

/-- Hits only in the second chunk: the call fails with chunk size 3 and succeeds with chunk size 100. -/
example : (efficiency 3 [(setup, tableB.take 2 ++ [trk 5 15 (some 0), trk 6 5 (some 0)])]).toOption.isNone ∧
    (efficiency 100 [(setup, tableB.take 2 ++ [trk 5 15 (some 0), trk 6 5 (some 0)])]).toOption.isSome := by
  decide +kernel

/-- A region with tracks in every chunk, and one without track in the second chunk. -/
example : (efficiency 3 [({ setup with regions := [⟨(0, 20), (10, 0)⟩] }, tableA)]).toOption.map
      (fun os => os.map fun o => o.regionEfficiency) = some [[1 / 2]] ∧
    (efficiency 3 [({ setup with regions := [⟨(0, 10), (0, 10)⟩] }, tableA)]).toOption.isNone ∧
    (efficiency 100 [({ setup with regions := [⟨(0, 10), (0, 10)⟩] }, tableA)]).toOption.isSome := by
  decide +kernel

end BTA.Efficiency.Props
