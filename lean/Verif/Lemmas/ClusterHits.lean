import Verif.Spec.ClusterHits
import Verif.Lemmas.ConvertCoordinates
/-
Helper lemmas for `cluster_hits`.
-/
namespace BTA.ClusterHits
open BTA.Convert BTA.ClusterHits.Spec BTA.Spec BTA.Merge

variable {K : Type} [Field K] [LinearOrder K]

/-! ### Histogram -/

theorem resize_getD (n : Nat) (a : List Nat) (h : a.length ≤ n) (i : Nat) : (Smc.resize [n] a).getD i 0 = a.getD i 0 := by
  simp only [Smc.resize, Smc.arraySize, List.foldr_cons, List.foldr_nil, Nat.mul_one]
  rw [List.take_of_length_le h]
  simp only [List.getD_eq_getElem?_getD, List.getElem?_append]
  split
  · rfl
  · next h1 =>
    rw [List.getElem?_eq_none (by omega : a.length ≤ i)]
    simp only [List.getElem?_replicate]
    split <;> rfl

theorem resize_length (n : Nat) (a : List Nat) (h : a.length ≤ n) : (Smc.resize [n] a).length = n := by
  simp only [Smc.resize, Smc.arraySize, List.foldr_cons, List.foldr_nil, Nat.mul_one, List.length_append, List.length_take,
    List.length_replicate]
  omega

theorem addHist_getD (a b : List Nat) (i : Nat) : (addHist a b).getD i 0 = a.getD i 0 + b.getD i 0 := by
  unfold addHist
  rw [← resize_getD (max a.length b.length) a (by omega) i, ← resize_getD (max a.length b.length) b (by omega) i]
  have h1 := resize_length (max a.length b.length) a (by omega)
  have h2 := resize_length (max a.length b.length) b (by omega)
  generalize Smc.resize [max a.length b.length] a = u at *
  generalize Smc.resize [max a.length b.length] b = v at *
  simp only [List.getD_eq_getElem?_getD]
  by_cases hi : i < max a.length b.length
  · rw [List.getElem?_eq_getElem (by rw [List.length_zipWith]; omega), List.getElem?_eq_getElem (by omega), List.getElem?_eq_getElem (by omega)]
    simp
  · rw [List.getElem?_eq_none (by rw [List.length_zipWith]; omega), List.getElem?_eq_none (by omega), List.getElem?_eq_none (by omega)]
    rfl

theorem foldl_addHist_getD (l : List (List Nat)) (a : List Nat) (i : Nat) :
    (l.foldl addHist a).getD i 0 = a.getD i 0 + (l.map fun h => h.getD i 0).sum := by
  induction l generalizing a with
  | nil => simp
  | cons h l ih => rw [List.foldl_cons, ih, addHist_getD, List.map_cons, List.sum_cons]; omega

theorem le_foldl_max (l : List Nat) (m : Nat) : m ≤ l.foldl max m ∧ ∀ x ∈ l, x ≤ l.foldl max m := by
  induction l generalizing m with
  | nil => simp
  | cons a l ih =>
    obtain ⟨h1, h2⟩ := ih (max m a)
    rw [List.foldl_cons]
    refine ⟨by omega, fun x hx => ?_⟩
    rcases List.mem_cons.mp hx with rfl | hx
    · omega
    · exact h2 x hx

omit [Field K] [LinearOrder K] in
theorem sizeHist_getD (c : List (Cluster K)) (i : Nat) : (sizeHist c).getD i 0 = (c.map Cluster.nHits).count i := by
  unfold sizeHist
  rw [List.getD_eq_getElem?_getD, List.getElem?_map]
  by_cases h : i < (c.map Cluster.nHits).foldl max 0 + 1
  · rw [List.getElem?_range h]; rfl
  · rw [List.getElem?_eq_none (by rw [List.length_range]; omega)]
    symm
    rw [Option.map_none, Option.getD_none, List.count_eq_zero]
    intro hm
    have := (le_foldl_max (c.map Cluster.nHits) 0).2 i hm
    omega

omit [Field K] [LinearOrder K] in
theorem count_flatMap (l : List (List (Cluster K) × Nat)) (i : Nat) :
    (l.map fun c => (c.1.map Cluster.nHits).count i).sum = ((l.flatMap Prod.fst).map Cluster.nHits).count i := by
  induction l with
  | nil => rfl
  | cons a l ih => rw [List.map_cons, List.sum_cons, ih, List.flatMap_cons, List.map_append, List.count_append]

/-- The histogram of a table of clusters that can be read. -/
theorem smcSizeHist_ok (cs : Nat) (hcs : 0 < cs) (clusters : List (Cluster K)) (hs : SortedBy Cluster.event clusters)
    (hm : ∀ e, multiplicity Cluster.event clusters e < cs) :
    ∃ h, smcSizeHist cs clusters = some h ∧ ∀ i, h.getD i 0 = (clusters.map Cluster.nHits).count i := by
  have he := chunks_ok hs cs hcs hm
  obtain ⟨-, -, h3⟩ := chunks_default hs cs hcs
  rcases h3 with ⟨h3, -⟩ | ⟨-, h3⟩
  · rw [he] at h3; cases h3
  · unfold smcSizeHist
    rw [he]
    refine ⟨_, rfl, fun i => ?_⟩
    rw [foldl_addHist_getD, List.map_map]
    simp only [Function.comp_def, sizeHist_getD]
    rw [count_flatMap, h3]
    simp

theorem smcErrors_ok (s : K) (p : Bool) (d : Dut.Pixels K) (cs : Nat) (hcs : 0 < cs) (clusters : List (Cluster K))
    (hs : SortedBy Cluster.event clusters) (hm : ∀ e, multiplicity Cluster.event clusters e < cs) :
    smcErrors s p d cs clusters = clusters.map (setErrors s p d) := by
  have he := chunks_ok hs cs hcs hm
  obtain ⟨-, -, h3⟩ := chunks_default hs cs hcs
  rcases h3 with ⟨h3, -⟩ | ⟨-, h3⟩
  · rw [he] at h3; cases h3
  · unfold smcErrors
    rw [he]
    dsimp only
    conv_rhs => rw [← h3]
    rw [List.map_flatMap]

/-! ### Masks -/

theorem mem_pixelList (m : List (List Bool)) (c r : Nat) :
    (c, r) ∈ pixelList m ↔ ∃ i j column, c = i + 1 ∧ r = j + 1 ∧ m[i]? = some column ∧ column[j]? = some true := by
  unfold pixelList
  simp only [List.mem_flatMap, List.mem_filterMap, Prod.exists, List.mem_zipIdx_iff_getElem?]
  constructor
  · rintro ⟨line, i, h1, b, j, h2, h3⟩
    cases b with
    | false => simp at h3
    | true =>
      simp only [if_true, Option.some.injEq, Prod.mk.injEq] at h3
      exact ⟨i, j, line, h3.1.symm, h3.2.symm, h1, h2⟩
  · rintro ⟨i, j, line, rfl, rfl, h1, h2⟩
    exact ⟨line, i, h1, true, j, h2, by simp⟩

theorem pixelsOf_map (m : Option (List (List Bool))) : PixelsOf m (m.map pixelList) := by
  cases m with
  | none => trivial
  | some m => exact fun c r => mem_pixelList m c r

theorem mode_positions (use : Option Bool) (names : List String) : (mode use names).positions = true ↔ UsesPositions use names := by
  rcases use with _ | _ | _ <;> simp [mode, coordinates, UsesPositions]

theorem mode_convert (use : Option Bool) (names : List String) :
    (mode use names).convert = true ↔ UsesPositions use names ∧ "x" ∉ names := by
  rcases use with _ | _ | _ <;> simp [mode, coordinates, UsesPositions]

theorem mode_copy (use : Option Bool) (names : List String) :
    (mode use names).copy = true ↔ UsesPositions use names ∧ "column" ∈ names := by
  rcases use with _ | _ | _ <;> simp [mode, coordinates, UsesPositions]

theorem masksRefused_iff (use : Option Bool) (names : List String) (masks : Option Masks) :
    masksRefused (mode use names) masks = true ↔ UsesPositions use names ∧ HasMask masks := by
  unfold masksRefused
  rw [Bool.and_eq_true, mode_positions]
  refine and_congr_right fun _ => ?_
  unfold HasMask
  cases masks with
  | none => simp [pixelLists]
  | some m =>
    rcases m with ⟨a, b⟩
    cases a <;> cases b <;> simp [pixelLists]

/-! ### One chunk -/

theorem outNames_y {names : List String} (h : (outNames true names).Nodup) (hr : "row" ∈ names) : "y" ∉ names := by
  intro hy
  simp only [outNames, if_true] at h
  have := List.inj_on_of_nodup_map h hr hy (by decide)
  exact absurd this (by decide)

section
variable [IsStrictOrderedRing K]

/-- Condition on the hits. -/
def InputOk (m : Mode) (d : Dut.Pixels K) (names : List String) (rows : List (Row K)) : Prop :=
  m.convert = true → ("column" ∈ names ∧ "row" ∈ names ∧ (outNames true names).Nodup) ∧ ∀ r ∈ rows, OnSensor d r

/-- The hits given to the clusterizer. -/
def inputOf (m : Mode) (d : Dut.Pixels K) (rows : List (Row K)) : List (Row K) :=
  if m.convert then rows.map (localRow d) else rows

/-- The stored hits. -/
def hitsOf (m : Mode) (rows out : List (Row K)) : List (Row K) := if m.copy then List.zipWith setIndices rows out else out

theorem clusterInput_iff (m : Mode) (d : Dut.Pixels K) (names : List String) (rows o : List (Row K)) :
    clusterInput m.convert d names rows = .ok o ↔ InputOk m d names rows ∧ o = inputOf m d rows := by
  unfold clusterInput InputOk inputOf
  cases m.convert with
  | false => simp [eq_comm]
  | true =>
    simp only [if_true, forall_const]
    have := chunkToLocal_iff d names rows o
    constructor
    · intro h
      split at h
      · next hnd =>
        split at h
        · cases h
        · next new hn =>
          injection h with h
          subst h
          obtain ⟨a, b, c⟩ := this.mp hn
          exact ⟨⟨⟨a.1, a.2, hnd⟩, b⟩, c⟩
      · cases h
    · rintro ⟨⟨a, b⟩, c⟩
      rw [if_pos a.2.2, this.mpr ⟨⟨a.1, a.2.1⟩, b, c⟩]

theorem clusterFunc_iff (C : Clusterizer K) (u2 : K → Nat) (noisy disabled : Option (List (Nat × Nat))) (d : Dut.Pixels K) (m : Mode)
    (names : List String) (hw : EventWise (C m.positions noisy disabled)) (rows : List (Row K)) (r : List (Row K) × List (Cluster K)) :
    clusterFunc C u2 noisy disabled d m names rows = .ok r ↔ InputOk m d names rows ∧
      r = (hitsOf m rows (C m.positions noisy disabled (inputOf m d rows)).1,
        (C m.positions noisy disabled (inputOf m d rows)).2.map (storeSeed u2)) := by
  have hlen : (C m.positions noisy disabled (inputOf m d rows)).1.length = rows.length := by
    rw [← (hw.hits _).length_eq]
    unfold inputOf
    split <;> simp
  unfold clusterFunc
  constructor
  · intro h
    split at h
    · cases h
    · next input hi =>
      obtain ⟨h1, rfl⟩ := (clusterInput_iff m d names rows input).mp hi
      unfold copyIndices at h
      unfold hitsOf
      cases hc : m.copy with
      | false =>
        rw [hc] at h
        simp only [Bool.false_eq_true, if_false, Except.ok.injEq] at h ⊢
        exact ⟨h1, h.symm⟩
      | true =>
        rw [hc] at h
        simp only [hlen, if_true, Except.ok.injEq] at h ⊢
        exact ⟨h1, h.symm⟩
  · rintro ⟨h1, rfl⟩
    rw [(clusterInput_iff m d names rows _).mpr ⟨h1, rfl⟩]
    dsimp only
    unfold copyIndices hitsOf
    cases hc : m.copy with
    | false => simp
    | true => simp [hlen]

omit [IsStrictOrderedRing K] [LinearOrder K] in
theorem localRow_event (d : Dut.Pixels K) (r : Row K) : (localRow d r).event = r.event := rfl

theorem inputOf_append (m : Mode) (d : Dut.Pixels K) (a b : List (Row K)) : inputOf m d (a ++ b) = inputOf m d a ++ inputOf m d b := by
  unfold inputOf
  split <;> simp

theorem inputOf_separated (m : Mode) (d : Dut.Pixels K) (a b : List (Row K)) (h : ∀ x ∈ a, ∀ y ∈ b, x.event < y.event) :
    ∀ x ∈ inputOf m d a, ∀ y ∈ inputOf m d b, x.event < y.event := by
  unfold inputOf
  split
  · intro x hx y hy
    obtain ⟨x', hx', rfl⟩ := List.mem_map.mp hx
    obtain ⟨y', hy', rfl⟩ := List.mem_map.mp hy
    exact h x' hx' y' hy'
  · exact h

omit [Field K] [LinearOrder K] [IsStrictOrderedRing K] in
theorem eventWise_nil {f : List (Row K) → List (Row K) × List (Cluster K)} (hw : EventWise f) : f [] = ([], []) := by
  have h1 : (f []).1 = [] := by
    have := (hw.hits []).length_eq
    exact List.length_eq_zero_iff.mp this.symm
  have h2 : (f []).2 = [] := by
    cases h : (f []).2 with
    | nil => rfl
    | cons c l =>
      have := hw.number [] c.event
      rw [h] at this
      simp [BTA.Spec.multiplicity] at this
  exact Prod.ext h1 h2

/-- All chunks. -/
theorem chunkLoop_iff' (C : Clusterizer K) (u2 : K → Nat) (noisy disabled : Option (List (Nat × Nat))) (d : Dut.Pixels K) (m : Mode)
    (names : List String) (hw : EventWise (C m.positions noisy disabled)) (chunks : List (List (Row K)))
    (hsep : chunks.Pairwise fun a b => ∀ x ∈ a, ∀ y ∈ b, x.event < y.event) (r : List (Row K) × List (Cluster K)) :
    chunkLoop (clusterFunc C u2 noisy disabled d m names) chunks = .ok r ↔ (∀ c ∈ chunks, InputOk m d names c) ∧
      r = (hitsOf m chunks.flatten (C m.positions noisy disabled (inputOf m d chunks.flatten)).1,
        (C m.positions noisy disabled (inputOf m d chunks.flatten)).2.map (storeSeed u2)) := by
  induction chunks generalizing r with
  | nil =>
    have h0 : inputOf m d ([] : List (Row K)) = [] := by unfold inputOf; split <;> rfl
    rw [chunkLoop, List.flatten_nil, h0, eventWise_nil hw]
    have h1 : hitsOf m ([] : List (Row K)) [] = [] := by unfold hitsOf; split <;> rfl
    simp [h1, eq_comm]
  | cons c cs ih =>
    obtain ⟨hc, hsep⟩ := List.pairwise_cons.mp hsep
    have hsep' : ∀ x ∈ c, ∀ y ∈ cs.flatten, x.event < y.event := by
      intro x hx y hy
      obtain ⟨b, hb, hy⟩ := List.mem_flatten.mp hy
      exact hc b hb x hx y hy
    have e := hw.append _ _ (inputOf_separated m d c cs.flatten hsep')
    have hl : c.length = (C m.positions noisy disabled (inputOf m d c)).1.length := by
      rw [← (hw.hits _).length_eq]
      unfold inputOf
      split <;> simp
    have e2 : hitsOf m (c ++ cs.flatten) ((C m.positions noisy disabled (inputOf m d c)).1 ++
          (C m.positions noisy disabled (inputOf m d cs.flatten)).1) =
        hitsOf m c (C m.positions noisy disabled (inputOf m d c)).1 ++
          hitsOf m cs.flatten (C m.positions noisy disabled (inputOf m d cs.flatten)).1 := by
      unfold hitsOf
      split
      · exact List.zipWith_append hl
      · rfl
    rw [List.flatten_cons, inputOf_append, e]
    dsimp only
    rw [e2, List.map_append, chunkLoop]
    constructor
    · intro h
      split at h
      · cases h
      · next r1 h1 =>
        split at h
        · cases h
        · next rs h2 =>
          injection h with h
          subst h
          obtain ⟨a1, rfl⟩ := (clusterFunc_iff C u2 noisy disabled d m names hw c r1).mp h1
          obtain ⟨a2, rfl⟩ := (ih hsep rs).mp h2
          refine ⟨?_, rfl⟩
          intro b hb
          rcases List.mem_cons.mp hb with rfl | hb
          · exact a1
          · exact a2 b hb
    · rintro ⟨h1, rfl⟩
      rw [(clusterFunc_iff C u2 noisy disabled d m names hw c _).mpr ⟨h1 c (by simp), rfl⟩]
      dsimp only
      rw [(ih hsep _).mpr ⟨fun b hb => h1 b (by simp [hb]), rfl⟩]

theorem separated_chunks (cs : Nat) (hcs : 0 < cs) (rows : List (Row K)) (hs : SortedBy Row.event rows) :
    ((dataAligned Row.event rows { chunkSize := cs }).items.map Prod.fst).Pairwise
      fun a b => ∀ x ∈ a, ∀ y ∈ b, x.event < y.event := by
  have := (chunks_default hs cs hcs).1
  rw [List.pairwise_map]
  exact this

/-- The tables of hits and clusters. -/
theorem smcTables_iff (C : Clusterizer K) (u2 : K → Nat) (noisy disabled : Option (List (Nat × Nat))) (d : Dut.Pixels K) (m : Mode)
    (names : List String) (hw : EventWise (C m.positions noisy disabled)) (cs : Nat) (hcs : 0 < cs) (rows : List (Row K))
    (hs : SortedBy Row.event rows) (r : List (Row K) × List (Cluster K)) :
    smcTables (clusterFunc C u2 noisy disabled d m names) cs rows = .ok r ↔ rows ≠ [] ∧
      (dataAligned Row.event rows { chunkSize := cs }).err = none ∧ InputOk m d names rows ∧
      r = (hitsOf m rows (C m.positions noisy disabled (inputOf m d rows)).1,
        (C m.positions noisy disabled (inputOf m d rows)).2.map (storeSeed u2)) := by
  have hsep := separated_chunks cs hcs rows hs
  have hfl : (dataAligned Row.event rows { chunkSize := cs }).err = none →
      ((dataAligned Row.event rows { chunkSize := cs }).items.map Prod.fst).flatten = rows := by
    intro he
    rcases (chunks_default hs cs hcs).2.2 with ⟨h, -⟩ | ⟨-, h⟩
    · rw [he] at h; cases h
    · rw [← List.flatMap_def]; exact h
  have key : ∀ chunks : List (List (Row K)), chunks.flatten = rows → rows ≠ [] →
      ((∀ c ∈ chunks, InputOk m d names c) ↔ InputOk m d names rows) := by
    intro chunks hc hne
    unfold InputOk
    constructor
    · intro h hm
      have hcn : ∃ c, c ∈ chunks := by
        cases chunks with
        | nil => exact absurd hc.symm hne
        | cons c l => exact ⟨c, by simp⟩
      obtain ⟨c, hcm⟩ := hcn
      refine ⟨(h c hcm hm).1, fun r hr => ?_⟩
      rw [← hc] at hr
      obtain ⟨b, hb, hr⟩ := List.mem_flatten.mp hr
      exact (h b hb hm).2 r hr
    · intro h c hcm hm
      refine ⟨(h hm).1, fun r hr => (h hm).2 r ?_⟩
      rw [← hc]
      exact List.mem_flatten.mpr ⟨c, hcm, hr⟩
  unfold smcTables
  constructor
  · intro h
    split at h
    · cases h
    · next hne =>
      split at h
      · cases h
      · next r' hr =>
        split at h
        · cases h
        · next he =>
          injection h with h
          subst h
          obtain ⟨a, b⟩ := (chunkLoop_iff' C u2 noisy disabled d m names hw _ hsep _).mp hr
          rw [hfl he] at b
          exact ⟨hne, he, (key _ (hfl he) hne).mp a, b⟩
  · rintro ⟨hne, he, hi, rfl⟩
    rw [if_neg hne, (chunkLoop_iff' C u2 noisy disabled d m names hw _ hsep _).mpr ⟨(key _ (hfl he) hne).mpr hi, by rw [hfl he]⟩]
    dsimp only
    rw [he]

theorem inputOf_sorted (m : Mode) (d : Dut.Pixels K) (rows : List (Row K)) (hs : SortedBy Row.event rows) :
    SortedBy Row.event (inputOf m d rows) := by
  unfold inputOf
  split
  · unfold SortedBy
    rw [List.pairwise_map]
    exact hs
  · exact hs

theorem inputOf_multiplicity (m : Mode) (d : Dut.Pixels K) (rows : List (Row K)) (e : Int) :
    multiplicity Row.event (inputOf m d rows) e = multiplicity Row.event rows e := by
  unfold inputOf
  split
  · unfold BTA.Spec.multiplicity
    rw [List.filter_map, List.length_map]
    rfl
  · rfl

end

end BTA.ClusterHits
