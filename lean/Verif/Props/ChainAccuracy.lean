import Verif.Spec.ChainAccuracy
import Verif.Props.ChainEff
import Verif.Props.LineFitError
/-
C192: the measured efficiency is the true efficiency, also with limited resolution.
-/
namespace BTA.Chain.Props
open BTA.Chain BTA.MergedColumns BTA.Line BTA.Dut BTA.Geo BTA.Spec BTA.Merge BTA.FindFile
open BTA.Fit (Sampling DutCfg)
open BTA.Efficiency (Setup Output)
open BTA.Efficiency.Spec (Used Close Matched TrackIn ratio Correct)

/-- Distances on the sensors are the same in the coordinates of the beam. -/
theorem sideways_beam (beam : Option Alignment) (als : List Alignment) (hb : SamePlanes beam als) (a : Alignment) (ha : a ∈ als) (hfl : FlatSensor a) (q q' : Vec3)
    (h : InPlane a q) (h' : InPlane a q') : sideways (beamPos beam q) (beamPos beam q') = sideways q q' := by
  have e1 := (hfl _).mp h
  have e2 := (hfl _).mp h'
  have e3 := (hfl _).mp ((hb a ha q).mpr h)
  have e4 := (hfl _).mp ((hb a ha q').mpr h')
  rw [BTA.Line.Error.sideways_nrm _ _ (e1.trans e2.symm), BTA.Line.Error.sideways_nrm _ _ (e3.trans e4.symm)]
  cases beam with
  | none => rfl
  | some b =>
    unfold BTA.Line.Error.nrm beamPos
    dsimp only
    rw [add_sub_add_right_eq_sub, ← Matrix.mulVec_sub, BTA.Props.dot_mulVec_orth _ (rotationMatrix_orth _ _ _)]

/-- The sums over the hits of a candidate depend on the DUTs that have seen the track. -/
theorem sumHits_used (duts : List (Bool × Pixels ℝ)) (g : Config) (hflat : Flat g.duts) (hn : g.duts.length = duts.length) (truth : Int → Truth) (tables : List (List (Clust ℝ)))
    (htab : tables.length = duts.length) (c : DutCfg) (e : Int) (r : Nat) (row : Row (Value ℝ))
    (hcl : ∀ d dut, duts[d]? = some dut → candOf row d = ((eventOf tables e d)[(truth e).own r d]?).map (clusterHit dut)) (φ : ℝ → ℝ) :
    sumHits (lineConfig g (ownFit c)) (candOf row) (fun _ a h => φ (placed a h 2)) = ∑ d ∈ usedDuts truth tables c (e, r), φ (zAt g.duts d) := by
  classical
  unfold sumHits
  symm
  have hlt : ∀ d, HasCluster truth tables d (e, r) → d < g.duts.length := by
    intro d h
    by_contra hd
    unfold HasCluster eventOf at h
    rw [List.getD_eq_getElem?_getD, List.getElem?_eq_none (by omega)] at h
    simp at h
  have hsub : usedDuts truth tables c (e, r) ⊆ (lineConfig g (ownFit c)).fitDuts.toFinset := by
    intro d hd
    obtain ⟨h1, h2⟩ := Finset.mem_filter.mp hd
    rw [List.mem_toFinset]
    exact List.mem_filter.mpr ⟨List.mem_range.mpr (hlt d h2), decide_eq_true h1⟩
  have hterm : ∀ d ∈ usedDuts truth tables c (e, r), φ (zAt g.duts d) = (match (lineConfig g (ownFit c)).duts[d]?, candOf row d with
      | some a, some h => φ (placed a h 2)
      | _, _ => 0) := by
    intro d hd
    obtain ⟨h1, h2⟩ := Finset.mem_filter.mp hd
    have hl := hlt d h2
    have hl' : d < duts.length := by omega
    rw [hcl d _ (List.getElem?_eq_getElem hl'), List.getElem?_eq_getElem (show _ < _ from h2)]
    have ha : (lineConfig g (ownFit c)).duts[d]? = some g.duts[d] := List.getElem?_eq_getElem hl
    rw [ha]
    simp only [Option.map_some]
    congr 1
    unfold zAt
    rw [List.getElem?_eq_getElem hl]
    simp only [Option.map_some, Option.getD_some]
    symm
    generalize (eventOf tables e d)[(truth e).own r d] = cl
    refine (hflat _ (List.getElem_mem hl) _).mp ⟨(clusterHit duts[d] cl).x, (clusterHit duts[d] cl).y, ?_⟩
    unfold placed AtLocal
    rw [clusterHit_z]
  rw [Finset.sum_congr rfl hterm]
  refine Finset.sum_subset hsub fun d hd hno => ?_
  rw [List.mem_toFinset] at hd
  obtain ⟨h1, h2⟩ := List.mem_filter.mp hd
  have hl' : d < duts.length := by rw [← hn]; exact List.mem_range.mp h1
  have : candOf row d = none := by
    rw [hcl d _ (List.getElem?_eq_getElem hl')]
    have : ¬ HasCluster truth tables d (e, r) := fun h => hno (Finset.mem_filter.mpr ⟨of_decide_eq_true h2, h⟩)
    unfold HasCluster at this
    rw [List.getElem?_eq_none (by simpa using this)]
    rfl
  rw [this]
  cases (lineConfig g (ownFit c)).duts[d]? <;> rfl

theorem close_of_distance (s : Setup ℝ) (dx dy ρ : ℝ) (h : Real.sqrt (dx ^ 2 + dy ^ 2) ≤ ρ) (hcx : ∀ c, s.cut.1 = some c → ρ ≤ c) (hcy : ∀ c, s.cut.2 = some c → ρ ≤ c) : Close s dx dy := by
  have h0 : 0 ≤ ρ := le_trans (Real.sqrt_nonneg _) h
  have h2 : dx ^ 2 + dy ^ 2 ≤ ρ ^ 2 := (Real.sqrt_le_left h0).mp h
  unfold Close
  by_cases hl : BTA.Efficiency.Spec.LargeCut s.cut.1 s.pixelSize.1 ∧ BTA.Efficiency.Spec.LargeCut s.cut.2 s.pixelSize.2
  · refine .inl ⟨hl.1, hl.2, ?_⟩
    have key : ∀ (d : ℝ) (cut : Option ℝ), (∀ c, cut = some c → ρ ≤ c) → BTA.Efficiency.Spec.scaled d cut ^ 2 * ρ ^ 2 ≤ d ^ 2 := by
      intro d cut hc
      cases cut with
      | none => simpa [BTA.Efficiency.Spec.scaled] using sq_nonneg d
      | some c =>
        have hc' := hc c rfl
        simp only [BTA.Efficiency.Spec.scaled, Option.elim_some]
        by_cases hc0 : c = 0
        · subst hc0
          simpa using sq_nonneg d
        · have hcp : 0 < c := lt_of_le_of_ne (le_trans h0 hc') (Ne.symm hc0)
          rw [div_pow, div_mul_eq_mul_div, div_le_iff₀ (by positivity)]
          have : ρ ^ 2 ≤ c ^ 2 := pow_le_pow_left₀ h0 hc' 2
          nlinarith [sq_nonneg d]
    have k1 := key dx _ hcx
    have k2 := key dy _ hcy
    by_cases hρ : ρ = 0
    · subst hρ
      have hd1 : dx = 0 := by nlinarith [sq_nonneg dx, sq_nonneg dy]
      have hd2 : dy = 0 := by nlinarith [sq_nonneg dx, sq_nonneg dy]
      have : ∀ cut : Option ℝ, BTA.Efficiency.Spec.scaled (0 : ℝ) cut = 0 := by
        intro cut
        cases cut <;> simp [BTA.Efficiency.Spec.scaled]
      rw [hd1, hd2, this, this]
      norm_num
    · have hp : 0 < ρ ^ 2 := by positivity
      have : (BTA.Efficiency.Spec.scaled dx s.cut.1 ^ 2 + BTA.Efficiency.Spec.scaled dy s.cut.2 ^ 2) * ρ ^ 2 ≤ 1 * ρ ^ 2 := by nlinarith
      exact le_of_mul_le_mul_right this hp
  · refine .inr ⟨hl, fun c hc => ?_, fun c hc => ?_⟩
    · exact le_trans (abs_le_of_sq_le_sq (by nlinarith [sq_nonneg dy]) h0) (hcx c hc)
    · exact le_trans (abs_le_of_sq_le_sq (by nlinarith [sq_nonneg dx]) h0) (hcy c hc)

/-- A candidate of a track is measured as well as its clusters. -/
theorem measured_row (beam : Option Alignment) (duts : List (Bool × Pixels ℝ)) (g : Config) (hb : SamePlanes beam g.duts) (hflat : Flat g.duts) (hn : g.duts.length = duts.length)
    (truth : Int → Truth) (tables : List (List (Clust ℝ))) (htab : tables.length = duts.length) (f : Nat) (err lev move : ℝ) (c : DutCfg) (e : Int) (r : Nat) (row : Row (Value ℝ))
    (hI : Blurred beam duts g.duts (eventOf tables e) f err lev move (truth e)) (hr : r < (truth e).m)
    (hcl : ∀ d dut, duts[d]? = some dut → candOf row d = ((eventOf tables e d)[(truth e).own r d]?).map (clusterHit dut))
    (hcard : (usedDuts truth tables c (e, r)).Nonempty) (z : ℝ) (hp : Precise g.duts (usedDuts truth tables c (e, r)) ((truth e).v r) err) :
    Measured (lineConfig g (ownFit c)) (candOf row) ((truth e).p r) ((truth e).v r) err ∧
      fitError (lineConfig g (ownFit c)) (candOf row) ((truth e).v r) err z = accuracy g.duts (usedDuts truth tables c (e, r)) ((truth e).v r) err z ∧
      ∀ (d : Nat) (a : Alignment) (x : Hit), g.duts[d]? = some a → candOf row d = some x → x.z = 0 ∧ Near ((truth e).p r) ((truth e).v r) err (placed a x) := by
  have hsum := sumHits_used duts g hflat hn truth tables htab c e r row hcl
  have hcnt : hitCount (lineConfig g (ownFit c)) (candOf row) = ((usedDuts truth tables c (e, r)).card : ℝ) := by
    unfold hitCount
    have := hsum fun _ => 1
    rw [this]
    simp
  have hmz : meanZ (lineConfig g (ownFit c)) (candOf row) = zMean g.duts (usedDuts truth tables c (e, r)) := by
    unfold meanZ zMean
    rw [hcnt, hsum fun z => z]
  have hsp : spreadZ (lineConfig g (ownFit c)) (candOf row) = zSpread g.duts (usedDuts truth tables c (e, r)) := by
    unfold spreadZ zSpread
    rw [hmz]
    have := hsum fun z => (z - zMean g.duts (usedDuts truth tables c (e, r))) ^ 2
    rw [this]
  have hnear : ∀ (d : Nat) (a : Alignment) (x : Hit), g.duts[d]? = some a → candOf row d = some x → x.z = 0 ∧ Near ((truth e).p r) ((truth e).v r) err (placed a x) := by
    intro d a x ha hx
    have hdl : d < duts.length := by rw [← hn]; exact (List.getElem?_eq_some_iff.mp ha).1
    have hdut := List.getElem?_eq_getElem hdl
    rw [hcl d _ hdut, Option.map_eq_some_iff] at hx
    obtain ⟨cl, h1, rfl⟩ := hx
    refine ⟨clusterHit_z _ _, ?_⟩
    obtain ⟨q, hq, hq2⟩ := hI.measured d a _ ha hdut r hr cl h1
    have hcr := hI.crosses d a ha r hr
    have ham := List.mem_of_getElem? ha
    rw [placed_clusterHit a _ cl q hq]
    rw [sideways_beam beam g.duts hb a ham (hflat a ham) q _ ⟨_, _, hq⟩ hcr] at hq2
    exact ⟨(truth e).l r d, ((hflat a ham _).mp hcr).trans ((hflat a ham _).mp ⟨_, _, hq⟩).symm, hq2⟩
  refine ⟨⟨hp.1, fun d _ a h hh => (hnear d a h hh.1 hh.2).2, ?_, ?_⟩, ?_, hnear⟩
  · classical
    obtain ⟨d, hd⟩ := hcard
    obtain ⟨h1, h2⟩ := Finset.mem_filter.mp hd
    have hl : d < g.duts.length := by
      by_contra hd
      unfold HasCluster eventOf at h2
      rw [List.getD_eq_getElem?_getD, List.getElem?_eq_none (by omega)] at h2
      simp at h2
    have hl' : d < duts.length := by omega
    refine ⟨d, List.mem_filter.mpr ⟨List.mem_range.mpr hl, decide_eq_true h1⟩, g.duts[d], clusterHit duts[d] ((eventOf tables e d)[(truth e).own r d]'h2), List.getElem?_eq_getElem hl, ?_⟩
    · rw [hcl d _ (List.getElem?_eq_getElem hl'), List.getElem?_eq_getElem (show _ < _ from h2)]
      rfl
  · rw [hcnt, hsp]
    exact hp.2
  · unfold fitError accuracy
    rw [hcnt, hsp, hmz]

/-- C192: the complete chain as in C188, for sensors perpendicular to the z axis and clusters measured with errors of at most `err`. The tracks are accurate to `acc` at the DUT, the distance cut
is not smaller than `err + acc`. The efficiency is the true efficiency in every region `R` with no track within `acc` of the edge (`Clear`). -/
theorem C192_efficiency (duts : List (Bool × Pixels ℝ)) (g : Config) (beam : Option Alignment) (hb : SamePlanes beam g.duts) (hflat : Flat g.duts) (hn : g.duts.length = duts.length)
    (h10 : duts.length ≤ 10) (zs extrap : List Nat) (hz : zs.Perm (List.range g.duts.length)) (f : Nat) (ds : List Nat) (hf : zs = f :: ds) (err lev move : ℝ) (hlever : Lever g.duts zs lev)
    (S : Sampling) (cs : Nat) (hcs : 0 < cs) (T0 : List (Clust ℝ)) (others : List (List (Clust ℝ)))
    (hd : duts.length = others.length + 1) (hs0 : SortedBy Clust.ev T0) (hs : ∀ T ∈ others, SortedBy Clust.ev T)
    (hm : ∀ T ∈ T0 :: others, ∀ e, BTA.Spec.multiplicity Clust.ev T e < cs) (hsl : g.slices ≠ 0) (hsvd : Svd g) (hcv : Converges g)
    (truth : Int → Truth)
    (hI : ∀ e, (∃ x ∈ T0, e ≤ x.ev) → Blurred beam duts g.duts (eventOf (T0 :: others) e) f err lev move (truth e))
    (planes : List (BTA.Fit.Plane ℝ)) (hcut : ∀ P ∈ planes, ValidCuts P) (S' : Sampling) (cs1 : Nat) (hcs1 : cs ≤ cs1) (cfgs : List DutCfg) (hnd : (cfgs.map DutCfg.dut).Nodup)
    (hfit : ∀ c ∈ cfgs, c.fitDuts.Nodup) (hreq : ∀ c ∈ cfgs, 2 ≤ required c ∧ required c ≤ (ownFit c).card) (acc : ℝ)
    (hprec : ∀ c ∈ cfgs, ∀ p, IsTrack truth T0 p → 2 ≤ (usedDuts truth (T0 :: others) c p).card →
      Precise g.duts (usedDuts truth (T0 :: others) c p) ((truth p.1).v p.2) err)
    (hacc : ∀ c ∈ cfgs, ∀ p, IsTrack truth T0 p → Taken truth (T0 :: others) c p →
      accuracy g.duts (usedDuts truth (T0 :: others) c p) ((truth p.1).v p.2) err (zAt g.duts c.dut) ≤ acc) :
    ∃ merged out tables, mergeClusterData Clust.ev T0 others cs = .ok merged ∧
      findFile (telescopeSetting beam g.duts zs extrap) S 0 cs (merged.map (mergedRow duts)) = some (out, none) ∧
      BTA.Fit.fitTracks (lineEst g) planes false false S' 0 cs1 (out.map fitCand) cfgs = .ok tables ∧
      ∀ c ∈ cfgs, (∀ rows : List (Row (Value ℝ)), (∀ row ∈ rows, row ∈ out ∧ Fitted false c row.flag.toNat) → ∃ ts, fitChunk (lineConfig g (ownFit c)) (rows.map candOf) = .ok ts) ∧
        (∃ rows, (c.dut, rows) ∈ tables) ∧
        ∀ a, g.duts[c.dut]? = some a → ∀ rows, (c.dut, rows) ∈ tables →
          ∀ (other : BTA.Fit.Row ℝ (Option Vec3) → BTA.Efficiency.Row ℝ) (s : Setup ℝ), s.offset = (0, 0) → ValidEdges s.edgesX → ValidEdges s.edgesY →
            (∀ x, s.cut.1 = some x → err + acc ≤ x) → (∀ y, s.cut.2 = some y → err + acc ≤ y) →
            let clear := Clear truth T0 (T0 :: others) c a s.enabled acc
            let tracks := fun P => Set.ncard {p | IsTrack truth T0 p ∧ Taken truth (T0 :: others) c p ∧ Crosses truth a c.dut s.enabled P p}
            let seen := fun P => Set.ncard {p | IsTrack truth T0 p ∧ Taken truth (T0 :: others) c p ∧ Crosses truth a c.dut s.enabled P p ∧
              HasCluster truth (T0 :: others) c.dut p}
            let inside := fun u w => ∃ i j, InBin s.edgesX i u ∧ InBin s.edgesY j w
            ∀ cs2 > 0,
              (∀ (rest : List (Setup ℝ × List (BTA.Efficiency.Row ℝ))) (os : List (Output ℝ)), BTA.Efficiency.efficiency cs2 ((s, rows.map (effRow c.dut other)) :: rest) = .ok os →
                ∃ o, os.head? = some o ∧
                  (∀ i j, let bin := fun u w => InBin s.edgesX i u ∧ InBin s.edgesY j w
                    clear bin → o.tracks (i, j) = tracks bin ∧ o.hits.withHit (i, j) = seen bin ∧ o.efficiency (i, j) = ratio (seen bin) (tracks bin)) ∧
                  (clear inside → o.mean = (seen inside : ℝ) / (tracks inside : ℝ))) ∧
              (s.regions = [] → Set.ncard {p | IsTrack truth T0 p} < cs2 → clear (fun _ _ => True) → clear inside → tracks (fun _ _ => True) = tracks inside →
                (∃ i j, let bin := fun u w => InBin s.edgesX i u ∧ InBin s.edgesY j w
                  clear bin ∧ s.minimumTrackDensity ≤ tracks bin ∧ seen bin ≠ 0) → ∃ o, BTA.Efficiency.efficiency cs2 [(s, rows.map (effRow c.dut other))] = .ok [o]) := by
  obtain ⟨merged, out, h1, h2, hlast, hev0⟩ := C190_candidates duts g.duts beam hb hflat hn h10 zs extrap hz f ds hf err lev move hlever S cs hcs T0 others hd hs0 hs hm
  have hev := fun e he => hev0 e (truth e) he (hI e he)
  obtain ⟨hsort, hmult, hflag3⟩ := out_facts duts g.duts beam hn h10 zs extrap hz S cs hcs T0 others hd hs0 hs hm merged out h1 h2
  have htab : (T0 :: others).length = duts.length := by rw [hd]; rfl
  have hT : SortedBy BTA.Fit.Cand.event (out.map fitCand) := by
    unfold SortedBy at hsort ⊢
    exact List.pairwise_map.mpr hsort
  have hflag : ∀ t ∈ out.map fitCand, t.flag < 2 ^ 32 := by
    intro t ht
    obtain ⟨row, -, rfl⟩ := List.mem_map.mp ht
    exact row.flag.isLt
  have hmul : ∀ e, BTA.Spec.multiplicity BTA.Fit.Cand.event (out.map fitCand) e < cs1 := by
    intro e
    refine lt_of_lt_of_le ?_ hcs1
    have : BTA.Spec.multiplicity BTA.Fit.Cand.event (out.map fitCand) e = BTA.Spec.multiplicity Row.ev out e := by
      unfold BTA.Spec.multiplicity
      rw [List.filter_map, List.length_map]
      rfl
    rw [this]
    exact hmult e
  obtain ⟨tables, h3, h4⟩ := BTA.Fit.Props.C24_tracks_table (lineEst g) planes hcut false S' cs1 (out.map fitCand) hT hflag hmul cfgs hnd hfit hreq
  have hbit : ∀ (row : Row (Value ℝ)) (p : Int × Nat), row ∈ out → row.ev = p.1 → (out.filter fun x => decide (x.ev = p.1))[p.2]? = some row → ∀ d,
      (row.flag.toNat.testBit d = true ↔ HasCluster truth (T0 :: others) d p) := by
    rintro row ⟨e, r⟩ hrow he hr d
    dsimp only at he hr
    subst he
    have hlast' := hlast row hrow
    have hout : ¬ d < duts.length → eventOf (T0 :: others) row.ev d = [] := by
      intro h
      unfold eventOf
      rw [List.getD_eq_getElem?_getD, List.getElem?_eq_none (by simp only [List.length_cons]; omega)]
      rfl
    by_cases hd32 : d < 32
    · rw [← BitVec.getLsbD, hflag3 row hrow d hd32]
      unfold HasCluster
      by_cases hdl : d < duts.length
      · rw [(hev row.ev hlast').2 r row hr d _ (List.getElem?_eq_getElem hdl), Option.isSome_map]
        simp [hdl]
      · rw [hout hdl]
        simp [hdl]
    · have e1 : row.flag.toNat.testBit d = false := by
        rw [← BitVec.getLsbD]
        exact BitVec.getLsbD_of_ge _ _ (by omega)
      rw [e1]
      unfold HasCluster
      rw [hout (by omega)]
      simp
  -- a row and its track
  have hrank : ∀ row ∈ out, ∃ r, (out.filter fun x => decide (x.ev = row.ev))[r]? = some row ∧ r < (truth row.ev).m := by
    intro row hrow
    obtain ⟨r, hr⟩ := List.getElem?_of_mem (show row ∈ out.filter fun x => decide (x.ev = row.ev) from List.mem_filter.mpr ⟨hrow, by simp⟩)
    refine ⟨r, hr, ?_⟩
    rw [← (hev row.ev (hlast row hrow)).1]
    exact (List.getElem?_eq_some_iff.mp hr).1
  have hmeas : ∀ c ∈ cfgs, ∀ row ∈ out, 2 ≤ hitsIn row.flag.toNat (ownFit c) → ∀ r, (out.filter fun x => decide (x.ev = row.ev))[r]? = some row →
      r < (truth row.ev).m ∧ Measured (lineConfig g (ownFit c)) (candOf row) ((truth row.ev).p r) ((truth row.ev).v r) err ∧
      fitError (lineConfig g (ownFit c)) (candOf row) ((truth row.ev).v r) err (zAt g.duts c.dut) =
        accuracy g.duts (usedDuts truth (T0 :: others) c (row.ev, r)) ((truth row.ev).v r) err (zAt g.duts c.dut) ∧
      ∀ (d : Nat) (a : Alignment) (x : Hit), g.duts[d]? = some a → candOf row d = some x → x.z = 0 ∧ Near ((truth row.ev).p r) ((truth row.ev).v r) err (placed a x) := by
    intro c hc row hrow hh r hr
    have hlast' := hlast row hrow
    have hrm : r < (truth row.ev).m := by
      rw [← (hev row.ev hlast').1]
      exact (List.getElem?_eq_some_iff.mp hr).1
    have hcard : 2 ≤ (usedDuts truth (T0 :: others) c (row.ev, r)).card := by
      classical
      have : usedDuts truth (T0 :: others) c (row.ev, r) = (ownFit c).filter fun d => row.flag.toNat.testBit d = true := by
        unfold usedDuts
        exact Finset.filter_congr fun d _ => (hbit row (row.ev, r) hrow rfl hr d).symm
      rw [this]
      exact hh
    have hne : (usedDuts truth (T0 :: others) c (row.ev, r)).Nonempty := Finset.card_pos.mp (by omega)
    exact ⟨hrm, measured_row beam duts g hb hflat hn truth (T0 :: others) htab f err lev move c row.ev r row (hI _ hlast') hrm
      ((hev row.ev hlast').2 r row hr) hne _ (hprec c hc (row.ev, r) ⟨hlast', hrm⟩ hcard)⟩
  have hz0 : ∀ row ∈ out, ∀ d < g.duts.length, ∀ h, candOf row d = some h → h.z = 0 := by
    intro row hrow d hd' h hh
    obtain ⟨r, hr, -⟩ := hrank row hrow
    rw [(hev row.ev (hlast row hrow)).2 r row hr d _ (List.getElem?_eq_getElem (show d < duts.length by omega)), Option.map_eq_some_iff] at hh
    obtain ⟨cl, -, rfl⟩ := hh
    exact clusterHit_z _ cl
  have hchunk : ∀ c ∈ cfgs, ∀ rows : List (Row (Value ℝ)), (∀ row ∈ rows, row ∈ out ∧ 2 ≤ hitsIn row.flag.toNat (ownFit c)) →
      ∃ ts, fitChunk (lineConfig g (ownFit c)) (rows.map candOf) = .ok ts := by
    intro c hc rows hrows
    refine BTA.Line.Props.C191_returns (lineConfig g (ownFit c)) hsl hsvd _ hflat ?_
    intro x hx
    obtain ⟨row, hrow, rfl⟩ := List.mem_map.mp hx
    obtain ⟨hrow', hst⟩ := hrows row hrow
    obtain ⟨r, hr, -⟩ := hrank row hrow'
    exact ⟨⟨_, _, _, (hmeas c hc row hrow' hst r hr).2.1⟩, fun d y hy hdl => hz0 row hrow' d hdl y hy⟩
  refine ⟨merged, out, tables, h1, h2, h3, fun c hc => ⟨?_, ?_, ?_⟩⟩
  · intro rows hrows
    exact hchunk c hc rows fun row hrow => ⟨(hrows row hrow).1, (hrows row hrow).2⟩
  · obtain ⟨rows, hrows, -⟩ := h4 c hc
    exact ⟨rows, hrows⟩
  intro a ha rows hrows other s hoff hex hey hcx hcy clear tracks seen inside cs2 hcs2
  have hdl : c.dut < duts.length := by
    rw [← hn]
    exact (List.getElem?_eq_some_iff.mp ha).1
  have hflata : FlatSensor a := hflat a (List.mem_of_getElem? ha)
  have hza : zAt g.duts c.dut = a.z := by
    unfold zAt
    rw [ha]
    rfl
  have hused : ∀ (row : Row (Value ℝ)) (p : Int × Nat) (r : BTA.Fit.Row ℝ (Option Vec3)), row ∈ out → row.ev = p.1 →
      (out.filter fun x => decide (x.ev = p.1))[p.2]? = some row → Stored false c row.flag.toNat → r.cand = fitCand row → r.est = lineEst g (ownFit c) (fitCand row) c.dut →
      (∀ R, clear R → ((Used s (effRow c.dut other r) ∧ R (BTA.Efficiency.Spec.posX s (effRow c.dut other r)) (BTA.Efficiency.Spec.posY s (effRow c.dut other r))) ↔
        Crosses truth a c.dut s.enabled R p)) ∧ (Matched s (effRow c.dut other r) ↔ HasCluster truth (T0 :: others) c.dut p) := by
    rintro row ⟨e, n⟩ r hrow he hr hst hcand hest
    dsimp only at he hr ⊢
    subst he
    have hlast' := hlast row hrow
    have htwo : 2 ≤ hitsIn row.flag.toNat (ownFit c) := le_trans (hreq c hc).1 hst.2.1
    obtain ⟨hrm, hms, hfe, hnr⟩ := hmeas c hc row hrow htwo n hr
    obtain ⟨ts, hts⟩ := hchunk c hc [row] (fun row' h => by
      rw [List.mem_singleton] at h
      subst h
      exact ⟨hrow, htwo⟩)
    have hlen := (fitChunk_ok (lineConfig g (ownFit c)) hsl _ ts hts).1
    obtain ⟨t, rfl⟩ := List.length_eq_one_iff.mp hlen
    obtain ⟨e, he⟩ : ∃ e, t.est c.dut = some e :=
      Option.isSome_iff_exists.mp (((BTA.Line.Props.C146_all (lineConfig g (ownFit c)) hsl hcv _ [t] hts).2 0 t rfl c.dut).mpr (List.getElem?_eq_some_iff.mp ha).1)
    have hle := lineEst_fit g hsl (ownFit c) row (hz0 row hrow) [t] t hts rfl c.dut e he
    rw [hle] at hest
    have hp0 : BTA.Efficiency.Spec.posX s (effRow c.dut other r) = e.pos 0 := by
      unfold BTA.Efficiency.Spec.posX
      rw [hoff, add_zero]
      show r.est.x.getD 0 = _
      rw [hest]
      rfl
    have hp1 : BTA.Efficiency.Spec.posY s (effRow c.dut other r) = e.pos 1 := by
      unfold BTA.Efficiency.Spec.posY
      rw [hoff, add_zero]
      show r.est.y.getD 0 = _
      rw [hest]
      rfl
    obtain ⟨u, w, hloc⟩ := (hI row.ev hlast').crosses c.dut a ha n hrm
    obtain ⟨hpz, hac⟩ := BTA.Line.Props.C191_accuracy (lineConfig g (ownFit c)) hsl hsvd _ [t] hts 0 _ t rfl rfl _ _ err hms c.dut a e ha hflata he
    have hate : AtLocal a (globalPoint a e) (e.pos 0) (e.pos 1) := by
      unfold AtLocal globalPoint
      congr 2
      ext i
      fin_cases i
      · rfl
      · rfl
      · exact hpz
    have htaken : Taken truth (T0 :: others) c (row.ev, n) := by
      classical
      unfold Taken
      have hb' := hbit row (row.ev, n) hrow rfl hr
      refine ⟨fun d hd' => (hb' d).mp (hst.1 d hd'), ?_⟩
      have h5 := hst.2.1
      unfold hitsIn at h5
      rw [Finset.filter_congr fun d _ => (hb' d).symm]
      exact h5
    have hfe' := hacc c hc (row.ev, n) ⟨hlast', hrm⟩ htaken
    rw [← hfe] at hfe'
    have hdist : Real.sqrt ((e.pos 0 - u) ^ 2 + (e.pos 1 - w) ^ 2) ≤ acc := by
      rw [BTA.Line.Props.local_distance a hflata _ _ _ _ _ _ hate hloc]
      refine le_trans (hac ((truth row.ev).l n c.dut) ((hflata _).mp ⟨u, w, hloc⟩)) ?_
      rw [← hza]
      exact hfe'
    refine ⟨?_, ?_⟩
    · intro R hR
      have hcl := hR (row.ev, n) ⟨hlast', hrm⟩ htaken u w hloc (e.pos 0) (e.pos 1) hdist
      unfold Used Crosses
      rw [hp0, hp1, hcl]
      constructor
      · exact fun h => ⟨u, w, hloc, h.1, h.2⟩
      · rintro ⟨u', w', hloc', h⟩
        obtain ⟨rfl, rfl⟩ := atLocal_inj _ _ _ _ _ _ hloc hloc'
        exact h
    · unfold Matched HasCluster
      rw [effRow_hit _ _ _ row hcand]
      dsimp only
      have hcl := (hev row.ev hlast').2 n row hr c.dut _ (List.getElem?_eq_getElem hdl)
      constructor
      · rintro ⟨h, hh, -⟩
        rw [Option.map_eq_some_iff] at hh
        obtain ⟨x, hx, -⟩ := hh
        rw [hcl, Option.map_eq_some_iff] at hx
        obtain ⟨cl, hcl', -⟩ := hx
        exact (List.getElem?_eq_some_iff.mp hcl').1
      · intro hlt
        rw [List.getElem?_eq_getElem hlt, Option.map_some] at hcl
        obtain ⟨hx0, hxn⟩ := hnr c.dut a _ ha hcl
        have hres := BTA.Line.Props.C191_residual (lineConfig g (ownFit c)) hsl hsvd _ [t] hts 0 _ t rfl rfl _ _ err hms c.dut a e ha hflata he _ hx0 hxn
        rw [hcl]
        refine ⟨_, rfl, ?_⟩
        rw [hp0, hp1]
        refine close_of_distance s _ _ _ (le_trans hres ?_) hcx hcy
        rw [← hza]
        linarith
  exact efficiency_core (lineEst g) T0 others truth out hsort hlast (fun e he => (hev e he).1) false c (Taken truth (T0 :: others) c) (fun row p a1 a2 a3 => stored_taken T0 others truth c row p (hbit row p a1 a2 a3)) planes hcut S' cs1 (by omega) cfgs hfit tables h3 hc a rows hrows other s hex hey clear hused cs2 hcs2

/-! ### Example: the data of Verif.Props.ChainBlurred, with errors of up to 0.5. -/

theorem blBlurred_all (e : Int) : Blurred exBeam exDuts exAls (eventOf blTables e) 0 0.5 1 0 (exTruth e) := by
  by_cases he : e = 0
  · subst he
    exact blBlurred
  · have hE : ∀ d, eventOf blTables e d = [] := fun d => by rw [blEvent, if_neg he]
    have hm : (exTruth e).m = 0 := if_neg he
    refine ⟨⟨by rw [hE, hm]; rfl, ?_⟩, ?_, ?_, ?_, ?_, ?_, ?_, ?_⟩
    · intro r hr; rw [hm] at hr; omega
    · intro d _; rw [hE, hm]; exact le_refl 0
    · intro d _ r hr; rw [hm] at hr; omega
    · intro d _ r hr; rw [hm] at hr; omega
    · intro d a _ r hr; rw [hm] at hr; omega
    · intro d a dut _ _ r hr; rw [hm] at hr; omega
    · intro d _ r hr; rw [hm] at hr; omega
    · intro d _ _ r hr; rw [hm] at hr; omega

theorem blIsTrack (p : Int × Nat) : IsTrack exTruth [exClust 0.5, exClust 10] p ↔ p = (0, 0) ∨ p = (0, 1) := by
  rw [← exIsTrack]
  unfold IsTrack
  simp [exClust]

theorem blHas (r d : Nat) : HasCluster exTruth blTables d (0, r) ↔ HasCluster exTruth exTables d (0, r) := by
  unfold HasCluster
  dsimp only
  rw [exEvent, blEvent, if_pos rfl, if_pos rfl]
  rcases d with _ | _ | _ | d <;> rfl

theorem blUsed (r : Nat) (hr : r < 2) : usedDuts exTruth blTables ⟨1, [0, 2], [], false, none⟩ (0, r) = {0, 2} := by
  classical
  have : usedDuts exTruth blTables ⟨1, [0, 2], [], false, none⟩ (0, r) = ownFit ⟨1, [0, 2], [], false, none⟩ := by
    apply Finset.filter_true_of_mem
    intro d hd
    have hd' : d = 0 ∨ d = 2 := by simpa [ownFit] using hd
    rw [blHas, exHas]
    rcases hd' with rfl | rfl
    · simpa [exTables] using hr
    · simp [exTables]
  rw [this]
  decide

theorem blTaken (r : Nat) : Taken exTruth blTables ⟨1, [0, 2], [], false, none⟩ (0, r) ↔ Taken exTruth exTables ⟨1, [0, 2], [], false, none⟩ (0, r) := by
  classical
  unfold Taken
  rw [Finset.filter_congr fun d _ => blHas r d]
  simp only [blHas]

theorem blClear (P : ℝ → ℝ → Prop) (h : ∀ x : ℝ, x = 0 ∨ x = 10 → ∀ u w, |u - x| ≤ 0.5 → |w| ≤ 0.5 → P u w) :
    Clear exTruth [exClust 0.5, exClust 10] blTables ⟨1, [0, 2], [], false, none⟩ ⟨0, 0, 1, 0, 0, 0⟩ exSetup.enabled 0.5 P := by
  intro p hp _ u w hloc u' w' hd
  obtain ⟨r, hr, rfl⟩ : ∃ r, r < 2 ∧ p = (0, r) := by
    rcases (blIsTrack p).mp hp with rfl | rfl
    · exact ⟨0, by decide, rfl⟩
    · exact ⟨1, by decide, rfl⟩
  have hloc' : AtLocal ⟨0, 0, 1, 0, 0, 0⟩ ((exTruth 0).at' r 1) (if r = 0 then 0 else 10) 0 := by
    unfold AtLocal
    dsimp only
    rw [BTA.Line.Props.rotation_none]
    ext i
    fin_cases i <;> simp [Truth.at', exTruth]
  obtain ⟨rfl, rfl⟩ := atLocal_inj _ _ _ _ _ _ hloc hloc'
  have h2 := (Real.sqrt_le_left (by norm_num)).mp hd
  have hx : (if r = 0 then (0 : ℝ) else 10) = 0 ∨ (if r = 0 then (0 : ℝ) else 10) = 10 := by
    by_cases h0 : r = 0
    · left; rw [if_pos h0]
    · right; rw [if_neg h0]
  have k1 : P u' w' := h _ hx u' w' (abs_le_of_sq_le_sq (by nlinarith [sq_nonneg (w' - 0)]) (by norm_num)) (by
    have := abs_le_of_sq_le_sq (show (w' - 0) ^ 2 ≤ 0.5 ^ 2 by nlinarith [sq_nonneg (u' - if r = 0 then (0 : ℝ) else 10)]) (by norm_num)
    rwa [sub_zero] at this)
  have k2 : P (if r = 0 then (0 : ℝ) else 10) 0 := h _ hx _ _ (by rw [sub_self, abs_zero]; norm_num) (by rw [abs_zero]; norm_num)
  exact ⟨fun _ => ⟨rfl, k2⟩, fun _ => ⟨rfl, k1⟩⟩

theorem blInBin (x : ℝ) (hx : x = 0 ∨ x = 10) (u w : ℝ) (hu : |u - x| ≤ 0.5) (hw : |w| ≤ 0.5) : InBin exSetup.edgesX 0 u ∧ InBin exSetup.edgesY 0 w := by
  rw [abs_le] at hu hw
  refine ⟨⟨-5, 15, rfl, rfl, ?_, .inl ?_⟩, ⟨-1, 1, rfl, rfl, ?_, .inl ?_⟩⟩ <;> rcases hx with rfl | rfl <;> norm_num at hu hw ⊢ <;> linarith [hu.1, hu.2, hw.1, hw.2]

theorem blSets (Q : ℝ → ℝ → Prop) :
    {p | IsTrack exTruth [exClust 0.5, exClust 10] p ∧ Taken exTruth blTables ⟨1, [0, 2], [], false, none⟩ p ∧ Crosses exTruth ⟨0, 0, 1, 0, 0, 0⟩ 1 exSetup.enabled Q p} =
    {p | IsTrack exTruth [exClust 0, exClust 10] p ∧ Taken exTruth exTables ⟨1, [0, 2], [], false, none⟩ p ∧ Crosses exTruth ⟨0, 0, 1, 0, 0, 0⟩ 1 exSetup.enabled Q p} ∧
    {p | IsTrack exTruth [exClust 0.5, exClust 10] p ∧ Taken exTruth blTables ⟨1, [0, 2], [], false, none⟩ p ∧ Crosses exTruth ⟨0, 0, 1, 0, 0, 0⟩ 1 exSetup.enabled Q p ∧
      HasCluster exTruth blTables 1 p} =
    {p | IsTrack exTruth [exClust 0, exClust 10] p ∧ Taken exTruth exTables ⟨1, [0, 2], [], false, none⟩ p ∧ Crosses exTruth ⟨0, 0, 1, 0, 0, 0⟩ 1 exSetup.enabled Q p ∧
      HasCluster exTruth exTables 1 p} := by
  constructor <;> ext p <;> simp only [Set.mem_setOf_eq] <;> rw [blIsTrack, exIsTrack] <;> refine and_congr_right fun hp => ?_ <;> rcases hp with rfl | rfl <;> simp only [blTaken, blHas]

/-- C192: `calculate_efficiency` gives an efficiency of 50 % for DUT 1, in spite of the errors. -/
example (S S' : Sampling) (other : BTA.Fit.Row ℝ (Option Vec3) → BTA.Efficiency.Row ℝ) : ∃ (g : Config) (merged : _) (out : List (Row (Value ℝ))) (tables : _)
    (rows : List (BTA.Fit.Row ℝ (Option Vec3))) (o : Output ℝ),
    mergeClusterData Clust.ev [exClust 0.5, exClust 10] [[exClust (-0.25)], [exClust 9.75, exClust 0]] 10 = .ok merged ∧
    findFile (telescopeSetting exBeam g.duts [0, 1, 2] [0, 1, 2]) S 0 10 (merged.map (mergedRow exDuts)) = some (out, none) ∧
    BTA.Fit.fitTracks (lineEst g) [] false false S' 0 10 (out.map fitCand) [⟨1, [0, 2], [], false, none⟩] = .ok tables ∧ (1, rows) ∈ tables ∧
    BTA.Efficiency.efficiency 10 [(exSetup, rows.map (effRow 1 other))] = .ok [o] ∧ o.efficiency (0, 0) = some 50 ∧ o.mean = 1 / 2 := by
  obtain ⟨svd0, h0⟩ := BTA.AlignTel.exists_svd
  let g : Config := ⟨exAls, [], fun _ => (0, 0), fun rows => some (svd0 rows), 4, fun _ => 0⟩
  have hT : ∀ T ∈ blTables, ∀ c ∈ T, c.ev = 0 := by
    intro T hT c hc
    simp only [blTables, List.mem_cons, List.not_mem_nil, or_false] at hT
    rcases hT with rfl | rfl | rfl <;> simp only [List.mem_cons, List.not_mem_nil, or_false] at hc
    · rcases hc with rfl | rfl <;> rfl
    · subst hc; rfl
    · rcases hc with rfl | rfl <;> rfl
  have hsorted : ∀ T ∈ blTables, SortedBy Clust.ev T := by
    intro T hT'
    unfold SortedBy
    apply List.pairwise_of_forall_mem_list
    intro a ha b hb
    rw [hT T hT' a ha, hT T hT' b hb]
  have hex : ValidEdges exSetup.edgesX := ⟨le_refl _, by simp [exSetup] <;> norm_num⟩
  have hey : ValidEdges exSetup.edgesY := ⟨le_refl _, by simp [exSetup] <;> norm_num⟩
  have hz0 : zAt exAls 0 = 0 := rfl
  have hz1 : zAt exAls 1 = 1 := rfl
  have hz2 : zAt exAls 2 = 2 := rfl
  have hmean : zMean exAls {0, 2} = 1 := by
    unfold zMean
    rw [Finset.sum_pair (by decide), Finset.card_pair (by decide), hz0, hz2]
    norm_num
  have hspread : zSpread exAls {0, 2} = Real.sqrt 2 := by
    unfold zSpread
    rw [Finset.sum_pair (by decide), hmean, hz0, hz2]
    norm_num
  obtain ⟨merged, out, tables, h1, h2, h3, h4⟩ := C192_efficiency exDuts g exBeam exPlanes blFlat rfl (by decide) [0, 1, 2] [0, 1, 2] (show [0, 1, 2].Perm (List.range 3) by decide) 0 [1, 2] rfl
    0.5 1 0 blLever S 10 (by decide)
    [exClust 0.5, exClust 10] [[exClust (-0.25)], [exClust 9.75, exClust 0]] rfl (hsorted _ (by simp [blTables])) (fun T h => hsorted T (by simp [blTables] at h ⊢; tauto))
    (by
      intro T h e
      refine lt_of_le_of_lt (List.length_filter_le _ _) ?_
      simp only [List.mem_cons, List.not_mem_nil, or_false] at h
      rcases h with rfl | rfl | rfl <;> decide)
    (show 4 ≠ 0 by decide) (by
      intro rows v hv
      rw [← Option.some.inj hv]
      exact h0 rows) (fun _ => rfl) exTruth (fun e _ => blBlurred_all e) [] (fun P hP => by cases hP) S' 10 (le_refl _) [⟨1, [0, 2], [], false, none⟩] (by decide) (by decide) (by decide) 0.5
    (by
      intro c hc p hp _
      rw [List.mem_singleton] at hc
      subst hc
      have hu : usedDuts exTruth blTables ⟨1, [0, 2], [], false, none⟩ p = {0, 2} := by
        rcases (blIsTrack p).mp hp with rfl | rfl
        · exact blUsed 0 (by decide)
        · exact blUsed 1 (by decide)
      show Precise exAls (usedDuts exTruth blTables ⟨1, [0, 2], [], false, none⟩ p) _ _
      rw [hu]
      refine ⟨by simp [exTruth], ?_⟩
      rw [hspread, Finset.card_pair (by decide)]
      have : (0 : ℝ) < Real.sqrt 2 := Real.sqrt_pos.mpr (by norm_num)
      norm_num)
    (by
      intro c hc p hp _
      rw [List.mem_singleton] at hc
      subst hc
      have hu : usedDuts exTruth blTables ⟨1, [0, 2], [], false, none⟩ p = {0, 2} := by
        rcases (blIsTrack p).mp hp with rfl | rfl
        · exact blUsed 0 (by decide)
        · exact blUsed 1 (by decide)
      show accuracy exAls (usedDuts exTruth blTables ⟨1, [0, 2], [], false, none⟩ p) _ _ (zAt exAls 1) ≤ _
      rw [hu]
      unfold accuracy
      rw [hmean, hz1, sub_self, abs_zero, zero_mul, add_zero])
  obtain ⟨-, ⟨rows, hrows⟩, h5⟩ := h4 _ List.mem_cons_self
  obtain ⟨h6, h7⟩ := h5 ⟨0, 0, 1, 0, 0, 0⟩ rfl rows hrows other exSetup rfl hex hey (fun x hx => by cases hx) (fun y hy => by obtain rfl := Option.some.inj hy; norm_num) 10 (by decide)
  have hbin0 : InBin exSetup.edgesX 0 0 ∧ InBin exSetup.edgesY 0 0 := exInBin 0 (.inl rfl)
  have hbin1 : InBin exSetup.edgesX 0 10 ∧ InBin exSetup.edgesY 0 0 := exInBin 10 (.inr rfl)
  have hs := blSets
  have n0 := exTracks (fun _ _ => True) trivial trivial
  have n1 := exTracks (fun u w => ∃ i j, InBin exSetup.edgesX i u ∧ InBin exSetup.edgesY j w) ⟨0, 0, hbin0⟩ ⟨0, 0, hbin1⟩
  have n2 := exTracks (fun u w => InBin exSetup.edgesX 0 u ∧ InBin exSetup.edgesY 0 w) hbin0 hbin1
  have k1 := exSeen (fun u w => ∃ i j, InBin exSetup.edgesX i u ∧ InBin exSetup.edgesY j w) ⟨0, 0, hbin0⟩
  have k2 := exSeen (fun u w => InBin exSetup.edgesX 0 u ∧ InBin exSetup.edgesY 0 w) hbin0
  rw [← (hs _).1] at n0 n1 n2
  rw [← (hs _).2] at k1 k2
  have c0 := blClear (fun _ _ => True) fun _ _ _ _ _ _ => trivial
  have c1 := blClear (fun u w => ∃ i j, InBin exSetup.edgesX i u ∧ InBin exSetup.edgesY j w) fun x hx u w hu hw => ⟨0, 0, blInBin x hx u w hu hw⟩
  have c2 := blClear (fun u w => InBin exSetup.edgesX 0 u ∧ InBin exSetup.edgesY 0 w) blInBin
  obtain ⟨o, ho⟩ := h7 rfl (by
    have : {p | IsTrack exTruth [exClust 0.5, exClust 10] p} = {((0 : Int), 0), (0, 1)} := by
      ext p
      exact blIsTrack p
    rw [this, Set.ncard_pair (by decide)]
    decide) c0 c1 (n0.trans n1.symm) ⟨0, 0, by
      refine ⟨c2, ?_, ?_⟩
      · exact le_trans (show (1 : ℝ) ≤ ((2 : Nat) : ℝ) by norm_num) (le_of_eq (congrArg Nat.cast n2.symm))
      · exact fun h => absurd (k2.symm.trans h) (by decide)⟩
  obtain ⟨o', ho', h8, h9⟩ := h6 [] [o] ho
  obtain rfl := Option.some.inj ho'
  refine ⟨g, merged, out, tables, rows, o, h1, h2, h3, hrows, ho, ?_, ?_⟩
  · exact (h8 0 0 c2).2.2.trans ((congrArg₂ ratio k2 n2).trans (by unfold ratio; norm_num))
  · exact (h9 c1).trans ((congrArg₂ (fun x y : Nat => (x : ℝ) / (y : ℝ)) k1 n1).trans (by norm_num))

end BTA.Chain.Props
