import Verif.Lemmas.ClusterHits
import Verif.Props.ConvertCoordinates
import Mathlib.Tactic.NormNum
import Mathlib.Algebra.Order.Ring.Rat
import Mathlib.Algebra.Field.Rat
/-
C127-C131: clustering of a hit file.
-/
namespace BTA.ClusterHits.Props
open BTA.Convert BTA.ClusterHits BTA.ClusterHits.Spec BTA.Spec

variable {K : Type} [Field K] [LinearOrder K] [IsStrictOrderedRing K]

/-- Everything about a call. -/
theorem clusterHits_iff (C : Clusterizer K) (u2 : K → Nat) (s : K) (d : Dut.Pixels K) (use : Option Bool) (masks : Option Masks)
    (cs : Nat) (t : Table K) (out : Output K) (hs : SortedBy Row.event t.rows) (hm : ∀ e, BTA.Spec.multiplicity Row.event t.rows e < cs)
    (hw : ∀ p n b, EventWise (C p n b)) :
    clusterHits C u2 s d use masks cs t = .ok out ↔ ¬(UsesPositions use t.names ∧ HasMask masks) ∧ t.rows ≠ [] ∧
      InputOk (mode use t.names) d t.names t.rows ∧
      (C (mode use t.names).positions (pixelLists masks).2 (pixelLists masks).1 (inputOf (mode use t.names) d t.rows)).2 ≠ [] ∧
      out.clusterHits = hitsOf (mode use t.names) t.rows
        (C (mode use t.names).positions (pixelLists masks).2 (pixelLists masks).1 (inputOf (mode use t.names) d t.rows)).1 ∧
      out.clusters = (C (mode use t.names).positions (pixelLists masks).2 (pixelLists masks).1
        (inputOf (mode use t.names) d t.rows)).2.map (fun c => setErrors s (mode use t.names).positions d (storeSeed u2 c)) ∧
      ∃ h, out.histClusterSize = some h ∧ smcSizeHist cs ((C (mode use t.names).positions (pixelLists masks).2 (pixelLists masks).1
        (inputOf (mode use t.names) d t.rows)).2.map (storeSeed u2)) = some h := by
  have hcs : 0 < cs := lt_of_le_of_lt (Nat.zero_le _) (hm 0)
  generalize hmode : mode use t.names = m
  have hw' := hw m.positions (pixelLists masks).2 (pixelLists masks).1
  generalize hr : C m.positions (pixelLists masks).2 (pixelLists masks).1 (inputOf m d t.rows) = r
  have hsr : SortedBy Cluster.event (r.2.map (storeSeed u2)) := by
    unfold SortedBy
    rw [List.pairwise_map]
    have := hw'.sorted _ (inputOf_sorted m d t.rows hs)
    rw [hr] at this
    exact this
  have hmr : ∀ e, BTA.Spec.multiplicity Cluster.event (r.2.map (storeSeed u2)) e < cs := by
    intro e
    have h1 := hw'.number (inputOf m d t.rows) e
    rw [hr, inputOf_multiplicity] at h1
    refine lt_of_le_of_lt ?_ (hm e)
    refine le_trans (le_of_eq ?_) h1
    unfold BTA.Spec.multiplicity
    rw [List.filter_map, List.length_map]
    rfl
  obtain ⟨h, hh, -⟩ := smcSizeHist_ok cs hcs _ hsr hmr
  have he := smcErrors_ok s m.positions d cs hcs _ hsr hmr
  have htab := smcTables_iff C u2 (pixelLists masks).2 (pixelLists masks).1 d m t.names hw' cs hcs t.rows hs
  rw [hr] at htab
  have hfin : ∀ out : Output K, finish s m.positions d cs (hitsOf m t.rows r.1, r.2.map (storeSeed u2)) = .ok out ↔ r.2 ≠ [] ∧
      out.clusterHits = hitsOf m t.rows r.1 ∧ out.clusters = r.2.map (fun c => setErrors s m.positions d (storeSeed u2 c)) ∧
      ∃ h, out.histClusterSize = some h ∧ smcSizeHist cs (r.2.map (storeSeed u2)) = some h := by
    intro out
    unfold finish
    by_cases h0 : r.2 = []
    · rw [if_pos (by dsimp only; rw [h0]; rfl)]
      simp [h0]
    · rw [if_neg (by dsimp only; simpa using h0)]
      dsimp only
      rw [hh, he, List.map_map]
      simp only [Option.isNone_some, Bool.and_false, Bool.false_eq_true, if_false, Except.ok.injEq]
      cases out
      simp only [Output.mk.injEq, h0, ne_eq, not_false_eq_true, true_and, Option.some.injEq]
      constructor
      · rintro ⟨rfl, rfl, rfl⟩
        exact ⟨rfl, rfl, h, rfl, rfl⟩
      · rintro ⟨rfl, rfl, _, rfl, rfl⟩
        exact ⟨rfl, rfl, rfl⟩
  have hok := chunks_ok hs cs hcs hm
  unfold clusterHits
  rw [hmode]
  by_cases hmask : masksRefused m masks = true
  · rw [if_pos hmask]
    rw [← hmode, masksRefused_iff] at hmask
    simp [hmask]
  · rw [if_neg hmask]
    rw [← hmode, masksRefused_iff] at hmask
    constructor
    · intro h1
      split at h1
      · cases h1
      · next r' h2 =>
        obtain ⟨a1, a2, a3, rfl⟩ := (htab r').mp h2
        exact ⟨hmask, a1, a3, (hfin out).mp h1⟩
    · rintro ⟨-, a1, a2, a3⟩
      rw [(htab _).mpr ⟨a1, hok, a2, rfl⟩]
      exact (hfin out).mpr a3

theorem input_fits (d : Dut.Pixels K) (use : Option Bool) (t : Table K) (h1 : InputOk (mode use t.names) d t.names t.rows) :
    IsInput d t.names (mode use t.names).positions t.rows (inputOf (mode use t.names) d t.rows) := by
  constructor
  · intro hp hx
    have hc := (mode_convert use t.names).mpr ⟨(mode_positions _ _).mp hp, hx⟩
    unfold inputOf
    rw [if_pos hc, List.forall₂_map_right_iff, List.forall₂_same]
    intro r _
    refine ⟨rfl, ?_, ?_, ?_⟩
    · simp only [localRow, setLocal, if_true, centre]; ring
    · simp only [localRow, setLocal, if_true, centre, show ("y" : String) ≠ "x" by decide, if_false]; ring
    · intro n hn _ _
      simp only [localRow, setLocal]
      have hy := outNames_y (h1 hc).1.2.2 (h1 hc).1.2.1
      rw [if_neg fun e => hx (by rw [← e]; exact hn), if_neg fun e => hy (by rw [← e]; exact hn)]
  · intro hp
    unfold inputOf
    rw [if_neg]
    intro hc
    obtain ⟨h4, h5⟩ := (mode_convert use t.names).mp hc
    rcases hp with hp | hp
    · rw [(mode_positions _ _).mpr h4] at hp; cases hp
    · exact h5 hp

theorem pixels_fit (masks : Option Masks) :
    PixelsOf (masks.bind Masks.noisy) (pixelLists masks).2 ∧ PixelsOf (masks.bind Masks.disabled) (pixelLists masks).1 := by
  cases masks with
  | none => exact ⟨trivial, trivial⟩
  | some m => exact ⟨pixelsOf_map m.noisy, pixelsOf_map m.disabled⟩

/-- C127: the clusterizer is given the coordinates asked for by the user (positions if the file has positions and nothing is said), for
each hit the middle of its pixel if the file only has columns and rows, and exactly the pixels of the masks, counted from 1. The
output file has the clusters in the order of the clusterizer, and for each hit its row in the order of the hits, with column and row
of the hit if positions are clustered and the file has columns. -/
theorem C127_input (C : Clusterizer K) (u2 : K → Nat) (s : K) (d : Dut.Pixels K) (use : Option Bool) (masks : Option Masks)
    (cs : Nat) (t : Table K) (out : Output K) (hs : SortedBy Row.event t.rows) (hm : ∀ e, BTA.Spec.multiplicity Row.event t.rows e < cs)
    (hw : ∀ p n b, EventWise (C p n b)) (h : clusterHits C u2 s d use masks cs t = .ok out) :
    ∃ positions noisy disabled input, (positions = true ↔ UsesPositions use t.names) ∧ IsInput d t.names positions t.rows input ∧
      PixelsOf (masks.bind Masks.noisy) noisy ∧ PixelsOf (masks.bind Masks.disabled) disabled ∧
      List.Forall₂ SameCluster (C positions noisy disabled input).2 out.clusters ∧
      out.clusterHits.length = t.rows.length ∧
      ∀ (k : Nat) hit row c, t.rows[k]? = some hit → out.clusterHits[k]? = some row → (C positions noisy disabled input).1[k]? = some c →
        SameHit (positions = true ∧ "column" ∈ t.names) hit c row := by
  obtain ⟨-, -, h1, -, h2, h3, -⟩ := (clusterHits_iff C u2 s d use masks cs t out hs hm hw).mp h
  have hw' := hw (mode use t.names).positions (pixelLists masks).2 (pixelLists masks).1
  have hl : (inputOf (mode use t.names) d t.rows).length = t.rows.length := by unfold inputOf; split <;> simp
  have hev : ∀ (k : Nat) r x, t.rows[k]? = some r → (inputOf (mode use t.names) d t.rows)[k]? = some x → x.event = r.event := by
    intro k r x hr hx
    unfold inputOf at hx
    split at hx
    · rw [List.getElem?_map, hr] at hx
      injection hx with hx
      rw [← hx]; rfl
    · rw [hr] at hx
      injection hx with hx
      rw [← hx]
  have hf := hw'.hits (inputOf (mode use t.names) d t.rows)
  refine ⟨(mode use t.names).positions, (pixelLists masks).2, (pixelLists masks).1, inputOf (mode use t.names) d t.rows,
    mode_positions _ _, input_fits d use t h1, (pixels_fit masks).1, (pixels_fit masks).2, ?_, ?_, ?_⟩
  · rw [h3, List.forall₂_map_right_iff, List.forall₂_same]
    intro c _
    unfold setErrors
    split
    · exact ⟨rfl, rfl, fun n hn => if_neg hn⟩
    · exact ⟨rfl, rfl, fun n hn => if_neg hn⟩
  · rw [h2]
    unfold hitsOf
    have := hf.length_eq
    split
    · rw [List.length_zipWith]; omega
    · omega
  · intro k hit row c e1 e2 e3
    have hce : c.event = hit.event := by
      obtain ⟨x, hx⟩ : ∃ x, (inputOf (mode use t.names) d t.rows)[k]? = some x := by
        have := (List.getElem?_eq_some_iff.mp e1).1
        exact ⟨_, List.getElem?_eq_getElem (by omega)⟩
      rw [← hev k hit x e1 hx]
      have hf2 := List.forall₂_iff_get.mp hf
      obtain ⟨k1, k2⟩ := List.getElem?_eq_some_iff.mp hx
      obtain ⟨k3, k4⟩ := List.getElem?_eq_some_iff.mp e3
      have := hf2.2 k k1 k3
      simp only [List.get_eq_getElem] at this
      rw [k2, k4] at this
      exact this
    rw [h2] at e2
    unfold hitsOf at e2
    by_cases hc : (mode use t.names).copy = true
    · rw [if_pos hc, List.getElem?_zipWith, e1, e3] at e2
      injection e2 with e2
      subst e2
      obtain ⟨c1, c2⟩ := (mode_copy _ _).mp hc
      refine ⟨hce, fun n n1 n2 => ?_, fun _ => ⟨?_, ?_⟩, fun hn => absurd ⟨(mode_positions _ _).mpr c1, c2⟩ hn⟩
      · simp only [setIndices]; rw [if_neg n1, if_neg n2]
      · simp [setIndices]
      · simp only [setIndices, if_true, show ("row" : String) ≠ "column" by decide, if_false]
    · rw [if_neg hc, e3] at e2
      injection e2 with e2
      subst e2
      refine ⟨hce, fun n _ _ => rfl, fun hn => absurd ((mode_copy _ _).mpr ⟨(mode_positions _ _).mp hn.1, hn.2⟩) hc, fun _ => ⟨rfl, rfl⟩⟩

/-- C127: masks are refused exactly if positions are clustered and there is a mask in the file. -/
theorem C127_masks_refused (C : Clusterizer K) (u2 : K → Nat) (s : K) (d : Dut.Pixels K) (use : Option Bool) (masks : Option Masks)
    (cs : Nat) (t : Table K) :
    clusterHits C u2 s d use masks cs t = .error .masksWithPositions ↔ UsesPositions use t.names ∧ HasMask masks := by
  rw [← masksRefused_iff]
  unfold clusterHits
  constructor
  · intro h
    by_contra hn
    rw [if_neg hn] at h
    have hf : ∀ (m : Mode) (rows : List (Row K)) n b e, clusterFunc C u2 n b d m t.names rows = .error e → e ≠ .masksWithPositions := by
      intro m rows n b e he
      unfold clusterFunc clusterInput copyIndices at he
      split at he
      · next e' h1 =>
        injection he with he
        subst he
        split_ifs at h1
        · split at h1
          · injection h1 with h1; rw [← h1]; exact fun h => by cases h
          · cases h1
        · injection h1 with h1; rw [← h1]; exact fun h => by cases h
      · split at he
        · next e' h1 =>
          injection he with he
          subst he
          split_ifs at h1
          injection h1 with h1; rw [← h1]; exact fun h => by cases h
        · cases he
    have hl : ∀ (m : Mode) (chunks : List (List (Row K))) n b e,
        chunkLoop (clusterFunc C u2 n b d m t.names) chunks = .error e → e ≠ .masksWithPositions := by
      intro m chunks n b e he
      induction chunks generalizing e with
      | nil => cases he
      | cons c l ih =>
        rw [chunkLoop] at he
        split at he
        · next e' h1 =>
          injection he with he
          subst he
          exact hf _ _ _ _ _ h1
        · split at he
          · next e' h1 =>
            injection he with he
            subst he
            exact ih _ h1
          · cases he
    split at h
    · next e h1 =>
      injection h with h
      subst h
      unfold smcTables at h1
      split_ifs at h1 with h0
      · cases h1
      · split at h1
        · next e h2 =>
          injection h1 with h1
          exact hl _ _ _ _ _ h2 h1
        · split at h1 <;> cases h1
    · unfold finish at h
      split_ifs at h <;> cases h
  · intro h
    rw [if_pos h]

/-- C128: two calls that only differ in the size of the chunks give the same tables and the same histogram entries. -/
theorem C128_chunk_size (C : Clusterizer K) (u2 : K → Nat) (s : K) (d : Dut.Pixels K) (use : Option Bool) (masks : Option Masks)
    (cs cs' : Nat) (t : Table K) (out out' : Output K) (hs : SortedBy Row.event t.rows)
    (hm : ∀ e, BTA.Spec.multiplicity Row.event t.rows e < cs) (hm' : ∀ e, BTA.Spec.multiplicity Row.event t.rows e < cs')
    (hw : ∀ p n b, EventWise (C p n b)) (h : clusterHits C u2 s d use masks cs t = .ok out)
    (h' : clusterHits C u2 s d use masks cs' t = .ok out') :
    out.clusterHits = out'.clusterHits ∧ out.clusters = out'.clusters := by
  obtain ⟨-, -, -, -, h2, h3, -⟩ := (clusterHits_iff C u2 s d use masks cs t out hs hm hw).mp h
  obtain ⟨-, -, -, -, h2', h3', -⟩ := (clusterHits_iff C u2 s d use masks cs' t out' hs hm' hw).mp h'
  exact ⟨h2.trans h2'.symm, h3.trans h3'.symm⟩

/-- What a file needs to be clustered. -/
def Needs (d : Dut.Pixels K) (use : Option Bool) (masks : Option Masks) (t : Table K) : Prop :=
  ¬(UsesPositions use t.names ∧ HasMask masks) ∧
  (UsesPositions use t.names → "x" ∉ t.names → "column" ∈ t.names ∧ "row" ∈ t.names ∧ "y" ∉ t.names ∧ ∀ r ∈ t.rows, OnSensor d r)

theorem inputOk_iff (d : Dut.Pixels K) (use : Option Bool) (t : Table K) (hn : t.names.Nodup) :
    InputOk (mode use t.names) d t.names t.rows ↔ (UsesPositions use t.names → "x" ∉ t.names → "column" ∈ t.names ∧ "row" ∈ t.names ∧
      "y" ∉ t.names ∧ ∀ r ∈ t.rows, OnSensor d r) := by
  unfold InputOk
  rw [mode_convert]
  constructor
  · intro h hp hx
    obtain ⟨⟨a, b, c⟩, e⟩ := h ⟨hp, hx⟩
    exact ⟨a, b, outNames_y c b, e⟩
  · rintro h ⟨hp, hx⟩
    obtain ⟨a, b, c, e⟩ := h hp hx
    refine ⟨⟨a, b, ?_⟩, e⟩
    simp only [outNames, if_true]
    refine List.Nodup.map_on ?_ hn
    intro u hu v hv huv
    exact rename_inj u v (fun h => hx (h ▸ hu)) (fun h => c (h ▸ hu)) (fun h => hx (h ▸ hv)) (fun h => c (h ▸ hv)) huv

/-- C129, true part: a file with what is needed is clustered if it has a hit and the clusterizer finds a cluster. Missing: files
without hits or clusters, see `C129_no_hits` and `C129_no_clusters`. -/
theorem C129_accepts_partial (C : Clusterizer K) (u2 : K → Nat) (s : K) (d : Dut.Pixels K) (use : Option Bool) (masks : Option Masks)
    (cs : Nat) (t : Table K) (hs : SortedBy Row.event t.rows) (hm : ∀ e, BTA.Spec.multiplicity Row.event t.rows e < cs)
    (hn : t.names.Nodup) (hw : ∀ p n b, EventWise (C p n b)) (h : Needs d use masks t) (h0 : t.rows ≠ [])
    (hc : ∀ p noisy disabled input, (p = true ↔ UsesPositions use t.names) → IsInput d t.names p t.rows input →
      PixelsOf (masks.bind Masks.noisy) noisy → PixelsOf (masks.bind Masks.disabled) disabled → (C p noisy disabled input).2 ≠ []) :
    ∃ out, clusterHits C u2 s d use masks cs t = .ok out := by
  have hi := (inputOk_iff d use t hn).mpr h.2
  have hcs : 0 < cs := lt_of_le_of_lt (Nat.zero_le _) (hm 0)
  have hcl := hc _ _ _ _ (mode_positions _ _) (input_fits d use t hi) (pixels_fit masks).1 (pixels_fit masks).2
  have hw' := hw (mode use t.names).positions (pixelLists masks).2 (pixelLists masks).1
  generalize hr : C (mode use t.names).positions (pixelLists masks).2 (pixelLists masks).1 (inputOf (mode use t.names) d t.rows) = r at hcl
  obtain ⟨hist, hh, -⟩ := smcSizeHist_ok cs hcs (r.2.map (storeSeed u2)) (by
    unfold SortedBy
    rw [List.pairwise_map]
    have := hw'.sorted _ (inputOf_sorted (mode use t.names) d t.rows hs)
    rw [hr] at this
    exact this) (by
    intro e
    have h1 := hw'.number (inputOf (mode use t.names) d t.rows) e
    rw [hr, inputOf_multiplicity] at h1
    refine lt_of_le_of_lt ?_ (hm e)
    refine le_trans (le_of_eq ?_) h1
    unfold BTA.Spec.multiplicity
    rw [List.filter_map, List.length_map]
    rfl)
  refine ⟨⟨_, _, some hist⟩, (clusterHits_iff C u2 s d use masks cs t _ hs hm hw).mpr ⟨h.1, h0, hi, ?_, rfl, rfl, hist, rfl, ?_⟩⟩
  · rw [hr]; exact hcl
  · rw [hr]; exact hh

/-- C129: nothing else is clustered. -/
theorem C129_needs (C : Clusterizer K) (u2 : K → Nat) (s : K) (d : Dut.Pixels K) (use : Option Bool) (masks : Option Masks)
    (cs : Nat) (t : Table K) (hs : SortedBy Row.event t.rows) (hm : ∀ e, BTA.Spec.multiplicity Row.event t.rows e < cs)
    (hn : t.names.Nodup) (hw : ∀ p n b, EventWise (C p n b)) (out : Output K) (h : clusterHits C u2 s d use masks cs t = .ok out) :
    Needs d use masks t := by
  obtain ⟨h1, -, h2, -⟩ := (clusterHits_iff C u2 s d use masks cs t out hs hm hw).mp h
  exact ⟨h1, (inputOk_iff d use t hn).mp h2⟩

/-- C129, refuted: a file without hits is not clustered, whatever the clusterizer does. -/
theorem C129_no_hits (C : Clusterizer K) (u2 : K → Nat) (s : K) (d : Dut.Pixels K) (use : Option Bool) (masks : Option Masks)
    (cs : Nat) (t : Table K) (h0 : t.rows = []) (out : Output K) : clusterHits C u2 s d use masks cs t ≠ .ok out := by
  intro h
  unfold clusterHits smcTables at h
  rw [if_pos h0] at h
  split_ifs at h <;> cases h

/-- C129, refuted: a file in which no cluster is found (for instance because all hits are in masked pixels, or below the smallest
charge) is not clustered. -/
theorem C129_no_clusters (C : Clusterizer K) (u2 : K → Nat) (s : K) (d : Dut.Pixels K) (use : Option Bool) (masks : Option Masks)
    (cs : Nat) (t : Table K) (hs : SortedBy Row.event t.rows) (hm : ∀ e, BTA.Spec.multiplicity Row.event t.rows e < cs)
    (hw : ∀ p n b, EventWise (C p n b))
    (hc : ∀ p noisy disabled input, (p = true ↔ UsesPositions use t.names) → IsInput d t.names p t.rows input →
      PixelsOf (masks.bind Masks.noisy) noisy → PixelsOf (masks.bind Masks.disabled) disabled → (C p noisy disabled input).2 = [])
    (out : Output K) : clusterHits C u2 s d use masks cs t ≠ .ok out := by
  intro h
  obtain ⟨-, -, h2, h3, -⟩ := (clusterHits_iff C u2 s d use masks cs t out hs hm hw).mp h
  exact h3 (hc _ _ _ _ (mode_positions _ _) (input_fits d use t h2) (pixels_fit masks).1 (pixels_fit masks).2)

/-- C130: entry `n` of the histogram of the cluster size is the number of clusters with `n` hits, for every size of the chunks. -/
theorem C130_cluster_size (C : Clusterizer K) (u2 : K → Nat) (s : K) (d : Dut.Pixels K) (use : Option Bool) (masks : Option Masks)
    (cs : Nat) (t : Table K) (out : Output K) (hs : SortedBy Row.event t.rows) (hm : ∀ e, BTA.Spec.multiplicity Row.event t.rows e < cs)
    (hw : ∀ p n b, EventWise (C p n b)) (h : clusterHits C u2 s d use masks cs t = .ok out) :
    ∃ hist, out.histClusterSize = some hist ∧ ∀ n, hist.getD n 0 = out.clusters.countP fun c => c.nHits = n := by
  obtain ⟨-, -, h1, -, -, h3, hist, h4, h5⟩ := (clusterHits_iff C u2 s d use masks cs t out hs hm hw).mp h
  have hcs : 0 < cs := lt_of_le_of_lt (Nat.zero_le _) (hm 0)
  have hw' := hw (mode use t.names).positions (pixelLists masks).2 (pixelLists masks).1
  generalize hr : C (mode use t.names).positions (pixelLists masks).2 (pixelLists masks).1 (inputOf (mode use t.names) d t.rows) = r at *
  obtain ⟨hist', hh, hcount⟩ := smcSizeHist_ok cs hcs (r.2.map (storeSeed u2)) (by
    unfold SortedBy
    rw [List.pairwise_map]
    have := hw'.sorted _ (inputOf_sorted (mode use t.names) d t.rows hs)
    rw [hr] at this
    exact this) (by
    intro e
    have h1 := hw'.number (inputOf (mode use t.names) d t.rows) e
    rw [hr, inputOf_multiplicity] at h1
    refine lt_of_le_of_lt ?_ (hm e)
    refine le_trans (le_of_eq ?_) h1
    unfold BTA.Spec.multiplicity
    rw [List.filter_map, List.length_map]
    rfl)
  rw [hh] at h5
  injection h5 with h5
  subst h5
  refine ⟨hist', h4, fun n => ?_⟩
  rw [hcount, h3, List.count, List.countP_map, List.countP_map, List.countP_map]
  apply List.countP_congr
  intro c _
  simp only [Function.comp_apply, storeSeed, beq_iff_eq, decide_eq_true_eq]
  unfold setErrors
  split <;> exact Iff.rfl

/-- C130: the errors of all clusters are the pitch divided by the square root of 12: in units of length for positions, in units of
pixels for columns and rows. -/
theorem C130_errors (C : Clusterizer K) (u2 : K → Nat) (s : K) (hsqrt : 0 < s ∧ s * s = 12) (d : Dut.Pixels K) (hx : 0 < d.columnSize)
    (hy : 0 < d.rowSize) (use : Option Bool) (masks : Option Masks)
    (cs : Nat) (t : Table K) (out : Output K) (hs : SortedBy Row.event t.rows) (hm : ∀ e, BTA.Spec.multiplicity Row.event t.rows e < cs)
    (hw : ∀ p n b, EventWise (C p n b)) (h : clusterHits C u2 s d use masks cs t = .ok out) (c : Cluster K) (hc : c ∈ out.clusters) :
    0 < c.errX ∧ 0 < c.errY ∧
    (UsesPositions use t.names → c.errX ^ 2 = d.columnSize ^ 2 / 12 ∧ c.errY ^ 2 = d.rowSize ^ 2 / 12) ∧
    (¬UsesPositions use t.names → c.errX ^ 2 = 1 / 12 ∧ c.errY ^ 2 = 1 / 12) := by
  obtain ⟨-, -, -, -, -, h3, -⟩ := (clusterHits_iff C u2 s d use masks cs t out hs hm hw).mp h
  obtain ⟨hs0, hs2⟩ := hsqrt
  rw [h3] at hc
  obtain ⟨c', -, rfl⟩ := List.mem_map.mp hc
  have hs3 : s ^ 2 = 12 := by rw [pow_two]; exact hs2
  unfold setErrors
  rw [← mode_positions]
  split
  · next hp =>
    refine ⟨by positivity, by positivity, fun _ => ⟨?_, ?_⟩, fun hn => absurd hp hn⟩
    · rw [div_pow, hs3]
    · rw [div_pow, hs3]
  · next hp =>
    refine ⟨by positivity, by positivity, fun hn => absurd hn hp, fun _ => ⟨?_, ?_⟩⟩
    · dsimp only; rw [div_div, mul_comm, ← div_div, div_self (ne_of_gt hx), div_pow, hs3, one_pow]
    · dsimp only; rw [div_div, mul_comm, ← div_div, div_self (ne_of_gt hy), div_pow, hs3, one_pow]

/-- C131, true part: the stored seed of a cluster is the column and row (or position) of the seed if these are integers from 0 to 65535.
Missing: positions. -/
theorem C131_seed_partial (C : Clusterizer K) (u2 : K → Nat) (hu : ∀ n : Nat, n < 2 ^ 16 → u2 (n : K) = n) (s : K) (d : Dut.Pixels K)
    (use : Option Bool) (masks : Option Masks)
    (cs : Nat) (t : Table K) (out : Output K) (hs : SortedBy Row.event t.rows) (hm : ∀ e, BTA.Spec.multiplicity Row.event t.rows e < cs)
    (hw : ∀ p n b, EventWise (C p n b)) (h : clusterHits C u2 s d use masks cs t = .ok out) :
    ∃ positions noisy disabled input, (positions = true ↔ UsesPositions use t.names) ∧ IsInput d t.names positions t.rows input ∧
      PixelsOf (masks.bind Masks.noisy) noisy ∧ PixelsOf (masks.bind Masks.disabled) disabled ∧
      List.Forall₂ (fun (c c' : Cluster K) => ∀ name, SeedName name →
          (c'.value name = c.value name ↔ ∃ n : Nat, n < 2 ^ 16 ∧ c.value name = (n : K)))
        (C positions noisy disabled input).2 out.clusters := by
  obtain ⟨-, -, h2, -, -, h3, -⟩ := (clusterHits_iff C u2 s d use masks cs t out hs hm hw).mp h
  refine ⟨_, _, _, _, mode_positions _ _, input_fits d use t h2, (pixels_fit masks).1, (pixels_fit masks).2, ?_⟩
  rw [h3, List.forall₂_map_right_iff, List.forall₂_same]
  intro c _ name hname
  have e : (setErrors s (mode use t.names).positions d (storeSeed u2 c)).value name = ((u2 (c.value name) % 2 ^ 16 : Nat) : K) := by
    unfold setErrors
    split <;> exact if_pos hname
  rw [e]
  constructor
  · intro h
    exact ⟨_, Nat.mod_lt _ (by norm_num), h.symm⟩
  · rintro ⟨n, hn, h⟩
    rw [h, hu n hn, Nat.mod_eq_of_lt hn]

/-- C131, refuted: the stored seed is never negative, although the positions of the hits in the left half of the sensor are; whatever the
conversion to uint16 does, the seed of a cluster of such hits is wrong. -/
theorem C131_negative (C : Clusterizer K) (u2 : K → Nat) (s : K) (d : Dut.Pixels K)
    (use : Option Bool) (masks : Option Masks)
    (cs : Nat) (t : Table K) (out : Output K) (hs : SortedBy Row.event t.rows) (hm : ∀ e, BTA.Spec.multiplicity Row.event t.rows e < cs)
    (hw : ∀ p n b, EventWise (C p n b)) (h : clusterHits C u2 s d use masks cs t = .ok out) (c : Cluster K) (hc : c ∈ out.clusters) :
    0 ≤ c.value "seed_x" ∧ 0 ≤ c.value "seed_y" := by
  obtain ⟨-, -, -, -, -, h3, -⟩ := (clusterHits_iff C u2 s d use masks cs t out hs hm hw).mp h
  rw [h3] at hc
  obtain ⟨c', -, rfl⟩ := List.mem_map.mp hc
  have e : ∀ name, SeedName name → 0 ≤ (setErrors s (mode use t.names).positions d (storeSeed u2 c')).value name := by
    intro name hname
    have e : (setErrors s (mode use t.names).positions d (storeSeed u2 c')).value name = ((u2 (c'.value name) % 2 ^ 16 : Nat) : K) := by
      unfold setErrors
      split <;> exact if_pos hname
    rw [e]
    exact Nat.cast_nonneg _
  exact ⟨e _ (.inl rfl), e _ (.inr (.inl rfl))⟩

/-- The middle of a pixel in the left half of the sensor is negative. -/
theorem C131_left_half (n : Nat) (size : K) (hsize : 0 < size) (c : Nat) (hc : 2 * c ≤ n) : centre n size (c : K) < 0 := by
  have h1 : (2 * c : K) ≤ n := by exact_mod_cast hc
  have e : centre n size (c : K) = -(size * (n + 1 - 2 * c) / 2) := by unfold centre; ring
  rw [e, neg_lt_zero]
  have : (0 : K) < n + 1 - 2 * c := by linarith
  positivity

/-! ### Examples -/

/-- A clusterizer for the examples: each hit that is not in a noisy pixel is a cluster, its seed is the hit. -/
def single (C : List (Nat × Nat) → Row K → Bool) : Clusterizer K := fun p noisy _ hits =>
  (hits, (hits.filter fun r => !(C (noisy.getD []) r)).map fun r => ⟨r.event, 1, 0, 0,
    fun n => if n = "seed_x" then r.value "x" else if n = "seed_column" then r.value "column" else if p then 1 else 0⟩)

omit [LinearOrder K] [IsStrictOrderedRing K] in
theorem single_eventWise (N : List (Nat × Nat) → Row K → Bool) (p n b) : EventWise (single N p n b) where
  append := fun a c _ => by simp [single]
  hits := fun a => by simp [single, List.forall₂_same]
  sorted := fun a ha => by
    unfold SortedBy at *
    simp only [single]
    rw [List.pairwise_map]
    exact List.Pairwise.sublist List.filter_sublist ha
  number := fun a e => by
    unfold BTA.Spec.multiplicity single
    dsimp only
    rw [List.filter_map, List.length_map]
    refine (List.Sublist.filter _ List.filter_sublist).length_le.trans (le_of_eq ?_)
    rfl

/-- A sensor of ten columns and rows with a pitch of 2, three hits in two events; the mask has the pixel of the second hit. -/
def exDut : Dut.Pixels ℚ := ⟨2, 2, 10, 10⟩
def exHit (e : Int) (c r : ℚ) : Row ℚ := ⟨e, fun n => if n = "column" then c else if n = "row" then r else 0⟩
def exTable : Table ℚ := ⟨["column", "row", "frame", "charge"], [exHit 0 1 3, exHit 0 2 1, exHit 4 7 7]⟩
def exNoisy (l : List (Nat × Nat)) (r : Row ℚ) : Bool := l.any fun p => decide ((p.1 : ℚ) = r.value "column" ∧ (p.2 : ℚ) = r.value "row")
def exMask : List (List Bool) := [[false, false], [true, false]]

/-- The number of clusters without masks, with the mask, and the positions and columns if positions are clustered. -/
example : (clusterHits (single exNoisy) (fun _ => 0) 3 exDut none none 3 exTable).toOption.map (fun o => (o.clusters.length, o.histClusterSize)) =
      some (3, some [0, 3]) ∧
    (clusterHits (single exNoisy) (fun _ => 0) 3 exDut none (some ⟨none, some exMask⟩) 3 exTable).toOption.map
      (fun o => (o.clusters.length, o.histClusterSize)) = some (2, some [0, 2]) ∧
    (clusterHits (single exNoisy) (fun _ => 0) 3 exDut (some true) none 4 exTable).toOption.map
      (fun o => o.clusterHits.map fun r => (r.value "x", r.value "column")) = some [(-9, 1), (-7, 2), (3, 7)] := by
  refine ⟨?_, ?_, ?_⟩ <;> decide +kernel

/-- The hypotheses of all theorems hold for the example. -/
theorem ex_sorted : SortedBy Row.event exTable.rows ∧ (∀ e, BTA.Spec.multiplicity Row.event exTable.rows e < 3) := by
  constructor
  · unfold SortedBy exTable exHit; simp
  · intro e
    unfold BTA.Spec.multiplicity exTable exHit
    by_cases h0 : e = 0
    · subst h0; decide
    · by_cases h4 : e = 4
      · subst h4; decide
      · have h1 : decide ((0 : Int) = e) = false := by simpa using fun h => h0 h.symm
        have h2 : decide ((4 : Int) = e) = false := by simpa using fun h => h4 h.symm
        simp [h1, h2]

/-- The position of the first hit is -9; the seed of its cluster is stored as a number that is not negative. -/
example (u2 : ℚ → Nat) (out : Output ℚ) (h : clusterHits (single exNoisy) u2 3 exDut (some true) none 3 exTable = .ok out) :
    (∀ c ∈ out.clusters, c.value "seed_x" ≠ -9) ∧
    ∃ r : Row ℚ, out.clusterHits[0]? = some r ∧ r.value "x" = -9 := by
  refine ⟨fun c hc => ?_, ?_⟩
  · have := (C131_negative _ _ _ _ _ _ _ _ _ ex_sorted.1 ex_sorted.2 (single_eventWise exNoisy) h c hc).1
    intro h
    rw [h] at this
    norm_num at this
  · obtain ⟨-, -, -, -, h2, -⟩ := (clusterHits_iff _ _ _ _ _ _ _ _ _ ex_sorted.1 ex_sorted.2 (single_eventWise exNoisy)).mp h
    rw [h2]
    exact ⟨_, rfl, by decide +kernel⟩

/-- A file with all hits in noisy pixels. -/
example (out : Output ℚ) : clusterHits (single fun _ _ => true) (fun _ => 0) 3 exDut none none 3 exTable ≠ .ok out :=
  C129_no_clusters _ _ _ _ _ _ _ _ ex_sorted.1 ex_sorted.2 (single_eventWise _) (fun p noisy disabled input _ _ _ _ => by simp [single]) out

/-- Masks together with positions. -/
example : clusterHits (single exNoisy) (fun _ => 0) 3 exDut (some true) (some ⟨some exMask, none⟩) 3 exTable = .error .masksWithPositions :=
  (C127_masks_refused _ _ _ _ _ _ _ _).mpr ⟨rfl, _, rfl, .inl (by simp)⟩

end BTA.ClusterHits.Props
