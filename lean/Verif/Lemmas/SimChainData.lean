import Verif.Lemmas.SimChainTruth
/-
Lemmas for the analysis of simulated data: the events.
-/
namespace BTA.SimChain
open BTA.Sim BTA.Sim.Spec BTA.Chain BTA.MergedColumns BTA.Dut BTA.Geo BTA.Line BTA.Spec

theorem evAt_range (k C : Nat) (d : Draws) (j : Nat) (hj : j < nTracks d C) :
    ((k * C : Nat) : Int) ≤ evAt ((k * C : Nat) : Int) d C j ∧ evAt ((k * C : Nat) : Int) d C j < (((k + 1) * C : Nat) : Int) := by
  have hl := nTracks_eq d C ((k * C : Nat) : Int)
  have hm : evAt ((k * C : Nat) : Int) d C j ∈ eventsFrom ((k * C : Nat) : Int) (trackCounts d.counts C) := by
    rw [← eventsFrom_eq]
    unfold evAt
    rw [List.getD_eq_getElem?_getD, List.getElem?_eq_getElem (by omega)]
    exact List.getElem_mem _
  have := eventsFrom_ge _ _ _ hm
  have hlen : (trackCounts d.counts C).length = C := by
    unfold trackCounts
    simp
  rw [hlen] at this
  rw [Nat.succ_mul]
  push_cast at this ⊢
  omega

/-- The chunk of an event. -/
theorem evAt_chunk (k C : Nat) (hC : 0 < C) (d : Draws) (j : Nat) (hj : j < nTracks d C) : (evAt ((k * C : Nat) : Int) d C j / (C : Int)).toNat = k := by
  obtain ⟨h1, h2⟩ := evAt_range k C d j hj
  generalize evAt ((k * C : Nat) : Int) d C j = x at h1 h2 ⊢
  have : x / (C : Int) = k := by
    rw [Int.ediv_eq_iff_of_pos (by omega)]
    push_cast at h1 h2
    constructor
    · linarith
    · rw [add_mul, one_mul] at h2
      linarith
  rw [this]
  rfl

/-- Track number `j` of a chunk. -/
noncomputable def trk (s : Settings) (d : Nat → Draws) (C k j : Nat) : Sim.Track := (chunkTracks s d C k).getD j ⟨0, 0, 0, 0⟩

theorem zip_range {α β : Type} (a : List α) (b : List β) (a0 : α) (b0 : β) (h : a.length = b.length) :
    a.zip b = (List.range a.length).map fun j => (a.getD j a0, b.getD j b0) := by
  refine List.ext_getElem (by simp [h]) fun i h1 h2 => ?_
  simp only [List.length_map, List.length_range] at h2
  rw [List.getElem_zip, List.getElem_map, List.getElem_range, List.getD_eq_getElem?_getD, List.getD_eq_getElem?_getD, List.getElem?_eq_getElem h2,
    List.getElem?_eq_getElem (by omega)]
  rfl

theorem simTracks_eq (s : Settings) (d : Nat → Draws) (C N : Nat) (e : Int) (h : 0 ≤ e ∧ e < ((N * C : Nat) : Int))
    (hl : (chunkTracks s d C (e / C).toNat).length = nTracks (d (e / C).toNat) C) :
    simTracks s d C N e = ((List.range (nTracks (d (e / C).toNat) C)).filter fun j => decide (evAt (((e / C).toNat * C : Nat) : Int) (d (e / C).toNat) C j = e)).map
      (trk s d C (e / C).toNat) := by
  unfold simTracks
  rw [if_pos h]
  unfold ofEvent
  have hl' := nTracks_eq (d (e / C).toNat) C (((e / C).toNat * C : Nat) : Int)
  rw [zip_range _ _ 0 (⟨0, 0, 0, 0⟩ : Sim.Track) (by omega), hl', List.filter_map, List.map_map]
  rfl

theorem mem_simTracks (s : Settings) (d : Nat → Draws) (C N : Nat) (hC : 0 < C) (k : Nat) (hk : k < N) (hl : (chunkTracks s d C k).length = nTracks (d k) C) (t : Sim.Track)
    (ht : t ∈ chunkTracks s d C k) : ∃ e, t ∈ simTracks s d C N e := by
  obtain ⟨j, hj, rfl⟩ := List.getElem_of_mem ht
  have hj' : j < nTracks (d k) C := by omega
  have hch := evAt_chunk k C hC (d k) j hj'
  obtain ⟨r1, r2⟩ := evAt_range k C (d k) j hj'
  refine ⟨evAt ((k * C : Nat) : Int) (d k) C j, ?_⟩
  have hle : (k + 1) * C ≤ N * C := Nat.mul_le_mul_right _ hk
  rw [simTracks_eq s d C N _ ⟨by omega, by omega⟩ (by rw [hch]; exact hl), hch]
  refine List.mem_map.mpr ⟨j, List.mem_filter.mpr ⟨List.mem_range.mpr hj', by simp⟩, ?_⟩
  unfold trk
  rw [List.getD_eq_getElem?_getD, List.getElem?_eq_getElem hj]
  rfl

/-- The tracks of the event that are in the list of their chunk. -/
def eventIdx (d : Nat → Draws) (C N : Nat) (idx : Nat → List Nat) (e : Int) : List Nat :=
  if 0 ≤ e ∧ e < ((N * C : Nat) : Int) then (idx (e / C).toNat).filter fun j => decide (evAt (((e / C).toNat * C : Nat) : Int) (d (e / C).toNat) C j = e) else []

theorem flatMap_one {α : Type} (L : Nat → List α) (k : Nat) : ∀ N, (∀ k' < N, k' ≠ k → L k' = []) → (List.range N).flatMap L = if k < N then L k else [] := by
  intro N
  induction N with
  | zero => intro _; rfl
  | succ N ih =>
    intro h
    rw [List.range_succ, List.flatMap_append, ih fun k' hk => h k' (by omega)]
    simp only [List.flatMap_cons, List.flatMap_nil, List.append_nil]
    by_cases hk : k = N
    · subst hk
      rw [if_neg (by omega), if_pos (by omega), List.nil_append]
    · rw [h N (by omega) fun hh => hk hh.symm, List.append_nil]
      split_ifs <;> first | rfl | omega

theorem event_clusters (d : Nat → Draws) (C N : Nat) (hC : 0 < C) (idx : Nat → List Nat) (key : Nat → Nat → Int × ℝ × ℝ) (T : List (Clust ℝ))
    (hT : T.map (fun c => (c.ev, c.meanColumn, c.meanRow)) = (List.range N).flatMap fun k => (idx k).map (key k))
    (hidx : ∀ k < N, ∀ j ∈ idx k, j < nTracks (d k) C ∧ (key k j).1 = evAt ((k * C : Nat) : Int) (d k) C j) (e : Int) :
    (T.filter fun c => decide (c.ev = e)).map (fun c => (c.ev, c.meanColumn, c.meanRow)) = (eventIdx d C N idx e).map (key (e / C).toNat) := by
  have h1 : (T.filter fun c => decide (c.ev = e)).map (fun c => (c.ev, c.meanColumn, c.meanRow)) =
      (T.map fun c => (c.ev, c.meanColumn, c.meanRow)).filter fun x => decide (x.1 = e) := by
    rw [List.filter_map]
    rfl
  rw [h1, hT, List.filter_flatMap]
  have hL : ∀ k < N, ((idx k).map (key k)).filter (fun x => decide (x.1 = e)) = ((idx k).filter fun j => decide (evAt ((k * C : Nat) : Int) (d k) C j = e)).map (key k) := by
    intro k hk
    rw [List.filter_map]
    congr 1
    refine List.filter_congr fun j hj => ?_
    simp only [Function.comp, (hidx k hk j hj).2]
  have hem : ∀ k < N, ((idx k).map (key k)).filter (fun x => decide (x.1 = e)) ≠ [] → 0 ≤ e ∧ e < ((N * C : Nat) : Int) ∧ k = (e / C).toNat := by
    intro k hk hne
    rw [hL k hk] at hne
    obtain ⟨x, hx⟩ := List.exists_mem_of_ne_nil _ hne
    obtain ⟨j, hj, -⟩ := List.mem_map.mp hx
    obtain ⟨hj1, hj2⟩ := List.mem_filter.mp hj
    have hj2 := of_decide_eq_true hj2
    have hjt := (hidx k hk j hj1).1
    obtain ⟨r1, r2⟩ := evAt_range k C (d k) j hjt
    have hle : (k + 1) * C ≤ N * C := Nat.mul_le_mul_right _ hk
    rw [hj2] at r1 r2
    refine ⟨by omega, by omega, ?_⟩
    rw [← hj2]
    exact (evAt_chunk k C hC (d k) j hjt).symm
  rw [flatMap_one _ (e / C).toNat N fun k hk hne => by
    by_contra hc
    exact hne (hem k hk hc).2.2]
  unfold eventIdx
  by_cases hin : 0 ≤ e ∧ e < ((N * C : Nat) : Int)
  · have hlt : (e / C).toNat < N := by
      have : e / (C : Int) < N := by
        refine Int.ediv_lt_of_lt_mul (by omega) ?_
        have := hin.2
        push_cast at this
        exact this
      have := Int.ediv_nonneg hin.1 (show (0 : Int) ≤ C by omega)
      omega
    rw [if_pos hlt, if_pos hin, hL _ hlt]
  · rw [if_neg hin]
    split_ifs with hlt
    · by_contra hc
      have := hem _ hlt hc
      exact hin ⟨this.1, this.2.1⟩
    · rfl

end BTA.SimChain
