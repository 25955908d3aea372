import Verif.Lemmas.SimChainEvent
/-
Lemmas for the analysis of simulated data: the true tracks of an event.
-/
namespace BTA.SimChain
open BTA.Sim BTA.Sim.Spec BTA.Chain BTA.MergedColumns BTA.Dut BTA.Geo BTA.Line BTA.Spec

/-- The true tracks from the simulated ones: `J` are the numbers of the tracks in the order of the clusters in the first DUT, `I d` those with a cluster in DUT `d`. -/
noncomputable def truthOf (als : List Alignment) (trk : Nat → Sim.Track) (J : List Nat) (I : Nat → List Nat) : Truth where
  m := J.length
  p := fun r => ![(trk (J.getD r 0)).x, (trk (J.getD r 0)).y, 0]
  v := fun r => direction (trk (J.getD r 0))
  l := fun r d => zAt als d / Real.cos (trk (J.getD r 0)).theta
  own := fun r d => (I d ++ J.filter fun j => decide (j ∉ I d)).idxOf (J.getD r 0)

theorem truthOf_at (als : List Alignment) (trk : Nat → Sim.Track) (J : List Nat) (I : Nat → List Nat) (r d : Nat) (a : Alignment) (ha : als[d]? = some a) :
    (truthOf als trk J I).at' r d = trackAt (trk (J.getD r 0)) a.z := by
  have hz : zAt als d = a.z := by
    unfold zAt
    rw [ha]
    rfl
  unfold Truth.at' truthOf trackAt
  dsimp only
  rw [hz]

theorem trackAt_z (t : Sim.Track) (z : ℝ) (h : Real.cos t.theta ≠ 0) : trackAt t z 2 = z := by
  unfold trackAt
  simp [direction]
  rw [div_mul_cancel₀ _ h]

theorem getD_mem (J : List Nat) (r : Nat) (hr : r < J.length) : J.getD r 0 ∈ J := by
  rw [List.getD_eq_getElem?_getD, List.getElem?_eq_getElem hr]
  exact List.getElem_mem hr

theorem merged_perm (J I : List Nat) (hJ : J.Nodup) (hI : I.Nodup) (hsub : I ⊆ J) : (I ++ J.filter fun j => decide (j ∉ I)).Perm J := by
  refine (List.perm_ext_iff_of_nodup ?_ hJ).mpr fun x => ?_
  · rw [List.nodup_append]
    refine ⟨hI, hJ.filter _, fun x hx y hy hxy => ?_⟩
    subst hxy
    have := (List.mem_filter.mp hy).2
    simp [hx] at this
  · rw [List.mem_append, List.mem_filter]
    constructor
    · rintro (h | h)
      · exact hsub h
      · exact h.1
    · intro h
      by_cases hx : x ∈ I
      · exact Or.inl hx
      · exact Or.inr ⟨h, by simpa using hx⟩

theorem own_lt (J I : List Nat) (x : Nat) : (I ++ J.filter fun j => decide (j ∉ I)).idxOf x < I.length ↔ x ∈ I := by
  constructor
  · intro h
    by_contra hx
    rw [List.idxOf_append_of_notMem hx] at h
    omega
  · intro h
    rw [List.idxOf_append_of_mem h]
    exact List.idxOf_lt_length_iff.mpr h

theorem truthOf_hasCluster (als : List Alignment) (trk : Nat → Sim.Track) (J : List Nat) (I : Nat → List Nat) (r d : Nat) :
    (truthOf als trk J I).own r d < (I d).length ↔ J.getD r 0 ∈ I d := own_lt J (I d) _

/-- The event fulfils the requirements for the reconstruction. -/
theorem truthOf_blurred (beam : Option Alignment) (duts : List (Bool × Pixels ℝ)) (als : List Alignment) (hb : SamePlanes beam als) (hflat : Flat als)
    (clusters : Nat → List (Clust ℝ)) (f : Nat) (hf : f < als.length) (err lev move : ℝ) (trk : Nat → Sim.Track) (I : Nat → List Nat)
    (hnd : ∀ d < als.length, (I d).Nodup) (hsub : ∀ d < als.length, I d ⊆ I f) (hlen : ∀ d < als.length, (clusters d).length = (I d).length)
    (hcos : ∀ j ∈ I f, Real.cos (trk j).theta ≠ 0)
    (hmeas : ∀ (d : Nat) (a : Alignment) dut, als[d]? = some a → duts[d]? = some dut → ∀ (n : Nat) c j, (clusters d)[n]? = some c → (I d)[n]? = some j →
      ∃ q, AtLocal a q (clusterHit dut c).x (clusterHit dut c).y ∧ sideways q (trackAt (trk j) a.z) ≤ err)
    (hmove : ∀ (d : Nat) (a a' : Alignment), als[d]? = some a → als[f]? = some a' → ∀ j ∈ I f, sideways (beamPos beam (trackAt (trk j) a'.z)) (beamPos beam (trackAt (trk j) a.z)) ≤ move)
    (hsep : ∀ (d : Nat) (a : Alignment), als[d]? = some a → d ≠ f → ∀ j ∈ I f, ∀ j' ∈ I f, j ≠ j' →
      2 * max (move + 2 * err) (2 * (1 + lev) * err) < sideways (beamPos beam (trackAt (trk j) a.z)) (beamPos beam (trackAt (trk j') a.z))) :
    Blurred beam duts als clusters f err lev move (truthOf als trk (I f) I) := by
  have hlt : ∀ d < als.length, ∀ r < (I f).length, (I d ++ (I f).filter fun j => decide (j ∉ I d)).idxOf ((I f).getD r 0) < (I f).length := by
    intro d hd r hr
    have hp := merged_perm (I f) (I d) (hnd f hf) (hnd d hd) (hsub d hd)
    rw [← hp.length_eq]
    exact List.idxOf_lt_length_iff.mpr (hp.mem_iff.mpr (getD_mem _ r hr))
  have hget : ∀ r (hr : r < (I f).length), (I f).getD r 0 = (I f)[r] := by
    intro r hr
    rw [List.getD_eq_getElem?_getD, List.getElem?_eq_getElem hr]
    rfl
  have hinj : ∀ r < (I f).length, ∀ r' < (I f).length, (I f).getD r 0 = (I f).getD r' 0 → r = r' := by
    intro r hr r' hr' h
    rw [hget r hr, hget r' hr'] at h
    exact (List.Nodup.getElem_inj_iff (hnd f hf)).mp h
  have hcross : ∀ (d : Nat) (a : Alignment), als[d]? = some a → ∀ r < (I f).length, InPlane a ((truthOf als trk (I f) I).at' r d) := by
    intro d a ha r hr
    rw [truthOf_at _ _ _ _ _ _ a ha]
    refine (hflat a (List.mem_of_getElem? ha) _).mpr ?_
    exact trackAt_z _ _ (hcos _ (getD_mem _ r hr))
  refine ⟨⟨hlen f hf, ?_⟩, ?_, ?_, ?_, hcross, ?_, ?_, ?_⟩
  · intro r hr
    show (I f ++ (I f).filter fun j => decide (j ∉ I f)).idxOf ((I f).getD r 0) = r
    rw [List.idxOf_append_of_mem (getD_mem _ r hr), hget r hr]
    exact (hnd f hf).idxOf_getElem r hr
  · intro d hd
    rw [hlen d hd]
    exact (hnd d hd).subperm (hsub d hd) |>.length_le
  · exact hlt
  · intro d hd r hr r' hr' h
    refine hinj r hr r' hr' ?_
    have hp := merged_perm (I f) (I d) (hnd f hf) (hnd d hd) (hsub d hd)
    exact (List.idxOf_inj (hp.mem_iff.mpr (getD_mem _ r hr))).mp h
  · intro d a dut ha hdut r hr c hc
    have hd := (List.getElem?_eq_some_iff.mp ha).1
    have h1 := (List.getElem?_eq_some_iff.mp hc).1
    rw [hlen d hd] at h1
    have h2 := (truthOf_hasCluster als trk (I f) I r d).mp h1
    have h3 : (I d)[(truthOf als trk (I f) I).own r d]? = some ((I f).getD r 0) := by
      show (I d)[(I d ++ (I f).filter fun j => decide (j ∉ I d)).idxOf ((I f).getD r 0)]? = _
      rw [List.idxOf_append_of_mem h2, List.getElem?_eq_getElem (List.idxOf_lt_length_iff.mpr h2), List.getElem_idxOf]
    obtain ⟨q, q1, q2⟩ := hmeas d a dut ha hdut _ c _ hc h3
    refine ⟨q, q1, ?_⟩
    have ham := List.mem_of_getElem? ha
    have hcr := hcross d a ha r hr
    rw [BTA.Chain.Props.sideways_beam beam als hb a ham (hflat a ham) q _ ⟨_, _, q1⟩ hcr, truthOf_at _ _ _ _ _ _ a ha]
    exact q2
  · intro d hd r hr
    rw [truthOf_at _ _ _ _ _ _ _ (List.getElem?_eq_getElem hd), truthOf_at _ _ _ _ _ _ _ (List.getElem?_eq_getElem hf)]
    exact hmove d _ _ (List.getElem?_eq_getElem hd) (List.getElem?_eq_getElem hf) _ (getD_mem _ r hr)
  · intro d hd hdf r hr r' hr' hne
    rw [truthOf_at _ _ _ _ _ _ _ (List.getElem?_eq_getElem hd), truthOf_at _ _ _ _ _ _ _ (List.getElem?_eq_getElem hd)]
    exact hsep d _ (List.getElem?_eq_getElem hd) hdf _ (getD_mem _ r hr) _ (getD_mem _ r' hr') fun h => hne (hinj r hr r' hr' h)

end BTA.SimChain
