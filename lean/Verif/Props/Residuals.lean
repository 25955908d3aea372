import Verif.Lemmas.Residuals
import Mathlib.Data.Rat.Floor
import Mathlib.Algebra.Order.Ring.Rat
import Mathlib.Tactic.NormNum

/-! Property C44: residual histograms accumulated chunk by chunk. -/

namespace BTA.Residuals.Props
open BTA.Binning BTA.Spec BTA.Residuals BTA.Residuals.Spec

variable {K : Type} [Field K] [LinearOrder K]

theorem profile_spec (T : List (Track K)) (sel : Pt K → Bool) (limit : Track K → Prop) (pos val : Pt K → K)
    (pos' res' : Track K → K) (pe ve : List K) (hp : ValidEdges pe) (hv : ValidEdges ve)
    (h : ∀ t hx hy c, t.hit = some (hx, hy) → t.chi2 = some c →
      ((sel ⟨hx, hy, t.ix, t.iy⟩ = true ↔ limit t) ∧ pos ⟨hx, hy, t.ix, t.iy⟩ = pos' t ∧ val ⟨hx, hy, t.ix, t.iy⟩ = res' t)) :
    let p := profile pos val pe ve ((select T).filter sel)
    IsProfile T limit pos' res' pe ve p.hist p.count p.final := by
  intro p
  constructor
  · intro i j
    show counts _ _ _ = _
    rw [counts_eq_length, List.filter_filter]
    apply count_select T _ (fun t => limit t ∧ InBin pe i (pos' t) ∧ InBin ve j (res' t))
    intro t hx hy c h1 h2
    obtain ⟨h3, h4, h5⟩ := h t hx hy c h1 h2
    simp only [Bool.and_eq_true, decide_eq_true_eq, h3, h4, h5, binIndex2_iff hp hv]
    tauto
  · intro i
    show counts _ _ _ = _
    rw [counts_eq_length, List.filter_filter]
    apply count_select T _ (fun t => limit t ∧ InBin pe i (pos' t))
    intro t hx hy c h1 h2
    obtain ⟨h3, h4, h5⟩ := h t hx hy c h1 h2
    simp only [Bool.and_eq_true, decide_eq_true_eq, h3, h4, binIndex_iff hp]
    tauto
  · intro i
    show (if counts _ _ _ = 0 then none else some (binMean _ _ _ _)) = _
    rw [final_eq_mean, List.filter_filter]
    congr 1
    apply filter_select T _ _ (fun t => limit t ∧ InBin pe i (pos' t))
    intro t hx hy c h1 h2
    obtain ⟨h3, h4, h5⟩ := h t hx hy c h1 h2
    refine ⟨?_, h5⟩
    simp only [Bool.and_eq_true, decide_eq_true_eq, h3, h4, binIndex_iff hp]
    tauto

variable [IsStrictOrderedRing K]

/-- C44 for the histograms whose binning is defined from the data: for every table sorted by event number and every chunk
size, if `calculate_residuals` succeeds then for the edges `e` of the output every histogram counts the rows of the
complete table, and the means over chunks are the means over all rows, undefined exactly in bins without row. The edges
are those of some first rows, not more than `chunk_size`.

Partial: the result is the same for all chunk sizes only for the same edges; see
`C44_binning_depends_on_chunk_size`. -/
theorem C44_given_binning_partial (s : Setup K) (T : List (Track K)) (hs : SortedBy Track.event T) (cs : Nat) (hcs : 0 < cs)
    (e : Edges K) (h : Hists K) (hr : residuals s T cs = .ok (e, h))
    (hrx : ValidEdges e.resX) (hry : ValidEdges e.resY) (hpx : ValidEdges e.posX) (hpy : ValidEdges e.posY) :
    (∀ i, h.resX i = number T fun t =>
      Found t ∧ Inside s.limitX (hitX t) ∧ Inside s.limitY (hitY t) ∧ InBin e.resX i (resX t)) ∧
    (∀ i, h.resY i = number T fun t =>
      Found t ∧ Inside s.limitX (hitX t) ∧ Inside s.limitY (hitY t) ∧ InBin e.resY i (resY t)) ∧
    IsProfile T (fun t => Inside s.limitY (hitY t)) Track.ix resX e.posX e.resX h.xx.hist h.xx.count h.xx.final ∧
    IsProfile T (fun t => Inside s.limitX (hitX t)) Track.iy resY e.posY e.resY h.yy.hist h.yy.count h.yy.final ∧
    IsProfile T (fun t => Inside s.limitY (hitY t)) Track.ix resY e.posX e.resY h.yx.hist h.yx.count h.yx.final ∧
    IsProfile T (fun t => Inside s.limitX (hitX t)) Track.iy resX e.posY e.resX h.xy.hist h.xy.count h.xy.final ∧
    ∃ n, n ≤ cs ∧ chooseEdges s (select (T.take n)) = .ok e := by
  obtain ⟨rfl, hn⟩ := residuals_eq s T hs cs hcs e h hr
  refine ⟨?_, ?_, ?_, ?_, ?_, ?_, hn⟩
  · intro i
    show counts _ _ _ = _
    rw [counts_eq_length, List.filter_filter]
    apply count_select T _ (fun t => Inside s.limitX (hitX t) ∧ Inside s.limitY (hitY t) ∧ InBin e.resX i (resX t))
    intro t hx hy c h1 h2
    simp only [Bool.and_eq_true, decide_eq_true_eq, within_iff, binIndex_iff hrx]
    simp only [hitX, hitY, resX, h1, Option.elim_some, Pt.dx]
    tauto
  · intro i
    show counts _ _ _ = _
    rw [counts_eq_length, List.filter_filter]
    apply count_select T _ (fun t => Inside s.limitX (hitX t) ∧ Inside s.limitY (hitY t) ∧ InBin e.resY i (resY t))
    intro t hx hy c h1 h2
    simp only [Bool.and_eq_true, decide_eq_true_eq, within_iff, binIndex_iff hry]
    simp only [hitX, hitY, resY, h1, Option.elim_some, Pt.dy]
    tauto
  all_goals
    apply profile_spec T _ _ _ _ _ _ _ _ (by assumption) (by assumption)
    intro t hx hy c h1 h2
    simp [within_iff, hitX, hitY, resX, resY, h1, Pt.dx, Pt.dy]

/-- C44 for the map of the mean distance between hit and track per pixel and the hit map: the chunked result is the result
of the complete table, without condition on the data (the binning is given by the pixels of the DUT). -/
theorem C44_pixel_map (s : Setup K) (T : List (Track K)) (hs : SortedBy Track.event T) (cs : Nat) (hcs : 0 < cs)
    (e : Edges K) (h : Hists K) (hr : residuals s T cs = .ok (e, h))
    (hex : ValidEdges s.edges2dX) (hey : ValidEdges s.edges2dY) (i j : Nat) :
    let InPixel := fun t : Track K => Found t ∧ InBin s.edges2dX i t.ix ∧ InBin s.edges2dY j t.iy
    h.hits2d (i, j) = number T InPixel ∧ h.count2d (i, j) = number T InPixel ∧
    some (h.mean2d (i, j)) =
      (mean (valuesOf T InPixel fun t => s.sqrt (resX t * resX t + resY t * resY t))).or (some 0) := by
  intro InPixel
  obtain ⟨rfl, -⟩ := residuals_eq s T hs cs hcs e h hr
  have hcount : (measure s e (select T)).count2d (i, j) = number T InPixel := by
    show counts _ _ _ = _
    rw [counts_eq_length]
    apply count_select T _ (fun t => InBin s.edges2dX i t.ix ∧ InBin s.edges2dY j t.iy)
    intro t hx hy c h1 h2
    simp only [decide_eq_true_eq, binIndex2_iff hex hey]
  refine ⟨hcount, hcount, ?_⟩
  have hf := final_eq_mean (fun p : Pt K => binIndex2 s.edges2dX s.edges2dY p.ix p.iy)
    (fun p => s.sqrt (p.dx * p.dx + p.dy * p.dy)) (select T) (i, j)
  rw [filter_select T _ _ (fun t => InBin s.edges2dX i t.ix ∧ InBin s.edges2dY j t.iy)
    (fun t => s.sqrt (resX t * resX t + resY t * resY t))] at hf
  · rw [← hf]
    show some (binMean _ _ _ _) = _
    split
    · next h0 => simp [binMean, (counts_eq_zero_iff _ _ _).mp h0]
    · rfl
  · intro t hx hy c h1 h2
    refine ⟨by simp only [decide_eq_true_eq, binIndex2_iff hex hey], ?_⟩
    simp [resX, resY, hitX, hitY, h1, Pt.dx, Pt.dy]

/-- C44: two chunk sizes give the same maps, and with the same edges they give the same result in total. -/
theorem C44_chunk_size (s : Setup K) (T : List (Track K)) (hs : SortedBy Track.event T) (cs cs' : Nat) (hcs : 0 < cs)
    (hcs' : 0 < cs') (e e' : Edges K) (h h' : Hists K) (hr : residuals s T cs = .ok (e, h))
    (hr' : residuals s T cs' = .ok (e', h')) :
    h.hits2d = h'.hits2d ∧ h.mean2d = h'.mean2d ∧ h.count2d = h'.count2d ∧ (e = e' → h = h') := by
  obtain ⟨rfl, -⟩ := residuals_eq s T hs cs hcs e h hr
  obtain ⟨rfl, -⟩ := residuals_eq s T hs cs' hcs' e' h' hr'
  refine ⟨rfl, rfl, rfl, ?_⟩
  rintro rfl; rfl

/-- C44: when it succeeds. A chunk size larger than every event is sufficient unless the table is empty ("No tracks were
processed.") or the edges cannot be determined from the first chunk. -/
theorem C44_outcome (s : Setup K) (T : List (Track K)) (hs : SortedBy Track.event T) (cs : Nat) (hcs : 0 < cs)
    (hm : ∀ e, multiplicity Track.event T e < cs) :
    (residuals s T cs = .error .noTracks ↔ T = []) ∧
    ((∀ l, (s.resEdgesX l).isSome ∧ (s.resEdgesY l).isSome ∧ (s.posEdgesX l).isSome ∧ (s.posEdgesY l).isSome) → T ≠ [] →
      ∃ r, residuals s T cs = .ok r) := by
  have hce : ∀ rows, chooseEdges s rows ≠ .error .noTracks := by
    intro rows
    unfold chooseEdges
    dsimp only
    split <;> simp
  rcases residuals_total s T hs cs hcs hm with ⟨h0, h1⟩ | ⟨h0, n, -, -, h1⟩
  · exact ⟨⟨fun _ => h0, fun _ => h1⟩, fun _ h => absurd h0 h⟩
  · constructor
    · simp only [h0, iff_false]
      rw [h1]
      cases h2 : chooseEdges s (select (T.take n)) with
      | ok e => simp
      | error e =>
        intro h3
        simp only [Except.error.injEq] at h3
        exact hce _ (h3 ▸ h2)
    · intro ht _
      rw [h1]
      unfold chooseEdges
      dsimp only
      obtain ⟨a, ha⟩ := Option.isSome_iff_exists.mp
        (ht (List.map Pt.dx (List.filter (fun p => within s.limitX p.hx && within s.limitY p.hy) (select (T.take n))))).1
      obtain ⟨b, hb⟩ := Option.isSome_iff_exists.mp
        (ht (List.map Pt.dy (List.filter (fun p => within s.limitX p.hx && within s.limitY p.hy) (select (T.take n))))).2.1
      obtain ⟨c, hc⟩ := Option.isSome_iff_exists.mp (ht (List.map Pt.ix (select (T.take n)))).2.2.1
      obtain ⟨d, hd⟩ := Option.isSome_iff_exists.mp (ht (List.map Pt.iy (select (T.take n)))).2.2.2
      rw [ha, hb, hc, hd]
      exact ⟨_, rfl⟩

/-! ### Concrete cases -/

/-- Binning as with `npixels_per_bin=1` for pixels of size 10; residuals from -2 to 2. -/
def setup : Setup ℚ where
  limitX := none
  limitY := some (some 0, none)
  edges2dX := linspace 0 40 4
  edges2dY := linspace 0 40 4
  resEdgesX _ := some (linspace (-2) 2 4)
  resEdgesY _ := some (linspace (-2) 2 4)
  posEdgesX := posEdges 10
  posEdgesY := posEdges 10
  sqrt v := v

/-- A track with a hit. -/
def trk (e : Int) (hx hy ix iy : ℚ) : Track ℚ := ⟨e, some (hx, hy), some 1, ix, iy⟩

/-- Four tracks with hits, one track without hit and one hit without track. -/
def table : List (Track ℚ) :=
  [trk 1 5 5 4 5, trk 2 15 6 16 5, ⟨3, none, some 1, 7, 7⟩, trk 4 36 16 35 16, ⟨5, some (1, 1), none, 0, 0⟩, trk 6 37 27 36 26]

/-- C44, negation of the remaining part: the edges along the position axis are taken from the tracks of the first chunk,
so the number of entries depends on `chunk_size`; tracks of later chunks beyond these edges are not counted. -/
theorem C44_binning_depends_on_chunk_size :
    ∃ (s : Setup ℚ) (T : List (Track ℚ)) (e e' : Edges ℚ) (h h' : Hists ℚ), SortedBy Track.event T ∧
      residuals s T 3 = .ok (e, h) ∧ residuals s T 100 = .ok (e', h') ∧
      (∀ i, InBin e.posX i 35 → False) ∧ InBin e'.posX 3 35 ∧ e.posX.length < e'.posX.length := by
  have h1 : (residuals setup table 3).toOption.map (fun r => r.1.posX) = some [4, 14, 24] := by decide +kernel
  have h2 : (residuals setup table 100).toOption.map (fun r => r.1.posX) = some [4, 14, 24, 34, 44] := by decide +kernel
  cases r1 : residuals setup table 3 with
  | error e => rw [r1] at h1; simp [Except.toOption] at h1
  | ok r =>
    cases r2 : residuals setup table 100 with
    | error e => rw [r2] at h2; simp [Except.toOption] at h2
    | ok r' =>
      rw [r1] at h1; rw [r2] at h2
      simp only [Except.toOption, Option.map_some, Option.some.injEq] at h1 h2
      refine ⟨setup, table, r.1, r'.1, r.2, r'.2, by unfold SortedBy; decide +kernel, r1, r2, ?_, ?_, by rw [h1, h2]; decide⟩
      · intro i hi
        rw [← binIndex_iff (by rw [h1]; unfold ValidEdges; decide +kernel), h1,
          show binIndex [(4 : ℚ), 14, 24] 35 = none by decide +kernel] at hi
        simp at hi
      · rw [← binIndex_iff (by rw [h2]; unfold ValidEdges; decide +kernel), h2]
        decide +kernel

/-- The hypotheses are met: with one chunk the profile has the four tracks, one of them with the mean residual -1. -/
example : SortedBy Track.event table ∧
    (residuals setup table 100).toOption.map (fun r => ((List.range 4).map r.2.xx.count, (List.range 4).map r.2.xx.final)) =
      some ([1, 1, 0, 2], [some 1, some (-1), none, some 1]) ∧
    (residuals setup table 3).toOption.map (fun r => ((List.range 4).map r.2.xx.count, (List.range 4).map r.2.xx.final)) =
      some ([1, 1, 0, 0], [some 1, some (-1), none, none]) := by
  refine ⟨by unfold SortedBy; decide +kernel, by decide +kernel, by decide +kernel⟩

/-- The map is the same for both chunk sizes. -/
example : ∀ cs ∈ [3, 4, 100], (residuals setup table cs).toOption.map (fun r =>
      [r.2.hits2d (0, 0), r.2.hits2d (1, 0), r.2.hits2d (3, 1), r.2.hits2d (3, 2)]) = some [1, 1, 1, 1] := by
  decide +kernel

example : ValidEdges setup.edges2dX ∧ ValidEdges (linspace (-2 : ℚ) 2 4) := by
  constructor <;> (unfold ValidEdges; decide +kernel)

example : residuals setup [] 3 = .error .noTracks :=
  (C44_outcome setup [] (by simp [SortedBy]) 3 (by decide) (by intro e; simp [multiplicity])).1.mpr rfl

end BTA.Residuals.Props
