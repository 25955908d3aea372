import Verif.Model.Chain
import Verif.Spec.Chain
import Verif.Props.Candidates
import Verif.Props.FindTruth
import Verif.Props.LineTracks
import Verif.Props.AlignTelescope
/-
C185: from clusters to track candidates, straight tracks.
C186: from clusters to fitted tracks.
-/
namespace BTA.Chain.Props
open BTA.Chain BTA.MergedColumns BTA.Line BTA.Dut BTA.Geo BTA.Spec BTA.Merge BTA.FindFile
open BTA.Find.Props (columnName CleanBase)
open BTA.MergedColumns.Props (base_clean merge_find C179_columns)
open BTA.Fit (Sampling)

theorem event_rows {C : Type} (ev : C → Int) (tables : List (List C)) (events : List Int) (e : Int) :
    (rowsFor ev tables events).filter (fun r => decide (r.1 = e)) =
      (List.range (events.count e)).map fun r => (e, tables.map fun T => nthOfEvent ev T e r) := by
  unfold rowsFor
  rw [List.filter_map, ← BTA.Merge.Props.ranks, List.map_map]
  apply List.map_congr_left
  intro p hp
  have hpe : p.1 = e := by simpa using (List.mem_filter.mp hp).2
  simp only [Function.comp, hpe]

theorem nth_event (tables : List (List (Clust ℝ))) (e : Int) (r d : Nat) (hd : d < tables.length) :
    (tables.map fun T => nthOfEvent Clust.ev T e r)[d]? = some ((eventOf tables e d)[r]?) := by
  rw [List.getElem?_map, List.getElem?_eq_getElem hd, Option.map_some]
  unfold nthOfEvent eventOf
  rw [List.getD_eq_getElem?_getD, List.getElem?_eq_getElem hd]
  rfl

/-- The hit of a DUT in a row of the merged table. -/
theorem hitOf_merged (duts : List (Bool × Pixels ℝ)) (cells : List (Option (Clust ℝ))) (d : Nat) (dut : Bool × Pixels ℝ) (cell : Option (Clust ℝ))
    (hd : duts[d]? = some dut) (hc : cells[d]? = some cell) (ev : Int) : hitOf d (mergedRow duts (ev, cells)).cols = cell.map (clusterHit dut) := by
  unfold hitOf
  have h := C179_columns duts cells d dut.1 dut.2 cell hd hc ev
  simp only [h]
  cases cell with
  | none => rfl
  | some c =>
    simp only [cellValue, clusterValue, Option.map_some, clusterHit]
    cases dut.1
    · simp only [Bool.false_eq_true, if_false]
      congr 2 <;> ring
    · simp only [if_true]

theorem hitOf_congr (d : Nat) (c c' : List Char → Value ℝ) (h : ∀ base, CleanBase base → c (columnName base d) = c' (columnName base d)) : hitOf d c = hitOf d c' := by
  unfold hitOf
  have h' : ∀ f : Col, c (nameOf f d) = c' (nameOf f d) := fun f => h f.base (base_clean f)
  simp only [h']

theorem clusterHit_z (dut : Bool × Pixels ℝ) (c : Clust ℝ) : (clusterHit dut c).z = 0 := by
  unfold clusterHit
  split <;> rfl

theorem le_maxMultiplicity (tables : List (List (Clust ℝ))) (e : Int) (d : Nat) (hd : d < tables.length) : (eventOf tables e d).length ≤ maxMultiplicity Clust.ev tables e := by
  unfold maxMultiplicity
  have : (eventOf tables e d).length = BTA.Spec.multiplicity Clust.ev tables[d] e := by
    unfold eventOf BTA.Spec.multiplicity
    rw [List.getD_eq_getElem?_getD, List.getElem?_eq_getElem hd]
    rfl
  rw [this]
  exact le_foldl_max_mem _ _ _ (List.mem_map_of_mem (List.getElem_mem hd))

theorem maxMultiplicity_le (tables : List (List (Clust ℝ))) (e : Int) (m : Nat) (h : ∀ d < tables.length, (eventOf tables e d).length ≤ m) :
    maxMultiplicity Clust.ev tables e ≤ m := by
  unfold maxMultiplicity
  have key : ∀ (l : List (List (Clust ℝ))) (a : Nat), a ≤ m → (∀ T ∈ l, BTA.Spec.multiplicity Clust.ev T e ≤ m) →
      (l.map fun T => BTA.Spec.multiplicity Clust.ev T e).foldl max a ≤ m := by
    intro l
    induction l with
    | nil => intro a ha _; exact ha
    | cons T l ih =>
      intro a ha hl
      exact ih _ (Nat.max_le.mpr ⟨ha, hl T (by simp)⟩) (fun T hT => hl T (by simp [hT]))
  refine key tables 0 (Nat.zero_le _) ?_
  intro T hT
  obtain ⟨d, hd, rfl⟩ := List.mem_iff_getElem.mp hT
  have := h d hd
  unfold eventOf at this
  rw [List.getD_eq_getElem?_getD, List.getElem?_eq_getElem hd] at this
  exact this

theorem alignmentOf_eq (als : List Alignment) (d : Nat) (a : Alignment) (h : als[d]? = some a) : alignmentOf als d = a := by
  unfold alignmentOf
  rw [List.getD_eq_getElem?_getD, h]
  rfl

theorem placed_clusterHit (a : Alignment) (dut : Bool × Pixels ℝ) (c : Clust ℝ) (q : Vec3) (h : AtLocal a q (clusterHit dut c).x (clusterHit dut c).y) :
    placed a (clusterHit dut c) = q := by
  unfold placed
  rw [clusterHit_z]
  exact h.symm

/-- Rows of an event in the merged table. -/
theorem merged_event (duts : List (Bool × Pixels ℝ)) (tables : List (List (Clust ℝ))) (events : List Int) (e : Int) :
    ((rowsFor Clust.ev tables events).map (mergedRow duts)).filter (fun t => decide (t.ev = e)) =
      (List.range (events.count e)).map fun r => mergedRow duts (e, tables.map fun T => nthOfEvent Clust.ev T e r) := by
  rw [List.filter_map]
  have : (fun t : Row (Value ℝ) => decide (t.ev = e)) ∘ mergedRow duts = fun r => decide (r.1 = e) := rfl
  rw [this, event_rows, List.map_map]
  rfl

theorem toBeam_eq (beam : Option Alignment) (q : Vec3) : toBeam beam q = beamPos beam q := by
  cases beam with
  | none => rfl
  | some b =>
    unfold toBeam beamPos
    dsimp only
    rw [apply_localToGlobal]

/-- Directions in the coordinates of the beam. -/
noncomputable def beamDir : Option Alignment → Vec3 → Vec3
  | none, v => v
  | some b, v => (rotationMatrix b.alpha b.beta b.gamma).mulVec v

theorem beamPos_add (beam : Option Alignment) (p v : Vec3) (l : ℝ) : beamPos beam (p + l • v) = beamPos beam p + l • beamDir beam v := by
  cases beam with
  | none => rfl
  | some b =>
    unfold beamPos beamDir
    dsimp only
    rw [Matrix.mulVec_add, Matrix.mulVec_smul]
    abel

theorem inPlane_add (a : Alignment) (q v : Vec3) (h : InPlane a q) : InPlane a (q + v) ↔ ∃ u w : ℝ, v = (rotationMatrix a.alpha a.beta a.gamma).mulVec ![u, w, 0] := by
  obtain ⟨u0, w0, h0⟩ := h
  unfold AtLocal at h0
  constructor
  · rintro ⟨u, w, h1⟩
    unfold AtLocal at h1
    refine ⟨u - u0, w - w0, ?_⟩
    have e : (![u - u0, w - w0, 0] : Vec3) = ![u, w, 0] - ![u0, w0, 0] := by ext i; fin_cases i <;> simp
    rw [e, Matrix.mulVec_sub]
    have : v = (q + v) - q := by abel
    rw [this, h1, h0]
    abel
  · rintro ⟨u, w, h1⟩
    refine ⟨u0 + u, w0 + w, ?_⟩
    unfold AtLocal
    have e : (![u0 + u, w0 + w, 0] : Vec3) = ![u0, w0, 0] + ![u, w, 0] := by ext i; fin_cases i <;> simp
    rw [e, Matrix.mulVec_add, h1, h0]
    abel

theorem pair3 (q : Vec3) (p v : Vec3) (l : ℝ) (h : q = p + l • v) :
    (some (q 0), some (q 1), some (q 2)) = (some (p 0 + l * v 0), some (p 1 + l * v 1), some (p 2 + l * v 2)) := by
  subst h
  rfl

/-- The tracks of an event are separated in the sense of the track finding. -/
theorem separated_event (beam : Option Alignment) (duts : List (Bool × Pixels ℝ)) (als : List Alignment) (hb : SamePlanes beam als) (hn : als.length = duts.length) (zs extrap : List Nat) (hz : zs.Perm (List.range als.length)) (f : Nat)
    (ds : List Nat) (hf : zs = f :: ds) (clusters : Nat → List (Clust ℝ)) (t : Truth) (hI : Straight beam duts als clusters f t) (x : Nat → Nat → Option ℝ × Option ℝ × Option ℝ)
    (hx : ∀ r < t.m, ∀ d a dut, als[d]? = some a → duts[d]? = some dut → x r d = globalPos beam a (((clusters d)[r]?).map (clusterHit dut))) :
    BTA.Find.Separated (telescopeSetting beam als zs extrap).setup t.m (fun r d => (x r d).1) (fun r d => (x r d).2.1) (fun r d => (x r d).2.2) (fun d r => t.own r d) f ds := by
  have hmem : ∀ d, d ∈ zs ↔ d < als.length := fun d => by rw [hz.mem_iff, List.mem_range]
  have hds : ∀ d ∈ ds, d < als.length ∧ d ≠ f := by
    intro d hd
    refine ⟨(hmem d).mp (by rw [hf]; exact List.mem_cons_of_mem _ hd), ?_⟩
    rintro rfl
    have := hz.nodup_iff.mpr List.nodup_range
    rw [hf] at this
    exact (List.nodup_cons.mp this).1 hd
  have hfn : f < als.length := (hmem f).mp (by rw [hf]; simp)
  have hget : ∀ d, d < als.length → ∃ a dut, als[d]? = some a ∧ duts[d]? = some dut := by
    intro d hd
    exact ⟨als[d], duts[d], List.getElem?_eq_getElem hd, List.getElem?_eq_getElem (by omega)⟩
  obtain ⟨R, hR, hsep⟩ := hI.separated
  refine BTA.Find.Props.separated_of_straight (telescopeSetting beam als zs extrap).setup rfl (hz.nodup_iff.mpr List.nodup_range) t.m _ _ _ _ f ds hf
    (fun d hd r hr => hI.range d (hds d hd).1 r hr) (fun d hd a ha b hb h => hI.inj d (hds d hd).1 a ha b hb h) (fun r hr => hI.first.2 r hr) ?_
    (fun d => ((alignmentOf als d).x, (alignmentOf als d).y, (alignmentOf als d).z))
    (fun d => let n := dutNormal (alignmentOf als d).alpha (alignmentOf als d).beta (alignmentOf als d).gamma; (n 0, n 1, n 2)) (fun d => rfl) (fun d => rfl)
    (fun r => (beamPos beam (t.p r) 0, beamPos beam (t.p r) 1, beamPos beam (t.p r) 2)) (fun r => (beamDir beam (t.v r) 0, beamDir beam (t.v r) 1, beamDir beam (t.v r) 2)) (fun r d => t.l r d) ?_ ?_ ?_ ?_ R hR ?_ ?_
  · intro r hr
    obtain ⟨a, dut, ha, hd⟩ := hget f hfn
    rw [hx r hr f a dut ha hd, List.getElem?_eq_getElem (by rw [hI.first.1]; exact hr)]
    rfl
  · intro d hd r hr hs
    have hdn := (hmem d).mp hd
    obtain ⟨a, dut, ha, hdu⟩ := hget d hdn
    have hrange := hI.range d hdn r hr
    have e := hx (t.own r d) hrange d a dut ha hdu
    dsimp only at hs ⊢
    rw [e] at hs ⊢
    cases hc : (clusters d)[t.own r d]? with
    | none => rw [hc] at hs; cases hs
    | some c =>
      have hp := placed_clusterHit a dut c _ (hI.measured d a dut ha hdu r hr c hc)
      unfold Truth.at' at hp
      rw [← globalHit_eq] at hp
      have hq : toBeam beam (globalHit a (clusterHit dut c)) = beamPos beam (t.p r) + t.l r d • beamDir beam (t.v r) := by
        rw [toBeam_eq, hp, beamPos_add]
      exact pair3 _ _ _ _ hq
  · intro d hd r hr
    obtain ⟨a, dut, ha, hdu⟩ := hget d (hds d hd).1
    rw [show BTA.Find.Props.dot _ _ = dot (dutNormal (alignmentOf als d).alpha (alignmentOf als d).beta (alignmentOf als d).gamma) (beamDir beam (t.v r)) from rfl, alignmentOf_eq als d a ha]
    intro h0
    obtain ⟨h1, h2⟩ := hI.crosses d a ha r hr
    apply h2
    have h3 := (hb a (List.mem_of_getElem? ha) _).mpr h1
    have h4 := (inPlane_add a _ _ h3).mpr ((BTA.AlignTel.Props.contains_iff a _).mp h0)
    have h5 := beamPos_add beam (t.at' r d) (t.v r) 1
    rw [one_smul, one_smul] at h5
    rw [← h5] at h4
    exact (inPlane_add a _ _ h1).mp ((hb a (List.mem_of_getElem? ha) _).mp h4)
  · intro d hd r hr
    obtain ⟨a, dut, ha, hdu⟩ := hget d (hds d hd).1
    obtain ⟨u, w, hl⟩ := (hb a (List.mem_of_getElem? ha) _).mpr (hI.crosses d a ha r hr).1
    have := BTA.AlignTel.Props.local_plane a u w
    rw [← show beamPos beam (t.at' r d) = (rotationMatrix a.alpha a.beta a.gamma).mulVec ![u, w, 0] + BTA.AlignTel.pos a from hl] at this
    rw [alignmentOf_eq als d a ha]
    unfold Truth.at' at this
    rw [beamPos_add] at this
    exact this
  · intro r hr d hd d' hd' hne
    exact hI.different d ((hmem d).mp hd) d' ((hmem d').mp hd') hne r hr
  · intro d hd r hr
    have := (hsep d (hds d hd).1 (hds d hd).2 r hr).1
    unfold Truth.at' at this
    rw [beamPos_add, beamPos_add] at this
    exact this
  · intro d hd r hr s hs' hrs
    have := (hsep d (hds d hd).1 (hds d hd).2 r hr).2 s hs' hrs
    unfold Truth.at' at this
    rw [beamPos_add, beamPos_add] at this
    exact this

/-- The candidates of an event whose hits are separated in the sense of the track finding. -/
theorem candidates_of_separated (duts : List (Bool × Pixels ℝ)) (als : List Alignment) (beam : Option Alignment) (hn : als.length = duts.length) (h10 : duts.length ≤ 10) (zs extrap : List Nat)
    (hz : zs.Perm (List.range als.length)) (f : Nat) (ds : List Nat) (hf : zs = f :: ds) (S : Sampling) (cs : Nat) (hcs : 0 < cs) (T0 : List (Clust ℝ)) (others : List (List (Clust ℝ)))
    (hd : duts.length = others.length + 1) (hs0 : SortedBy Clust.ev T0) (hs : ∀ T ∈ others, SortedBy Clust.ev T)
    (hm : ∀ T ∈ T0 :: others, ∀ e, BTA.Spec.multiplicity Clust.ev T e < cs) :
    ∃ merged out, mergeClusterData Clust.ev T0 others cs = .ok merged ∧
      findFile (telescopeSetting beam als zs extrap) S 0 cs (merged.map (mergedRow duts)) = some (out, none) ∧
      (∀ row ∈ out, ∃ x ∈ T0, row.ev ≤ x.ev) ∧
      ∀ (e : Int) (m : Nat) (own : Nat → Nat → Nat), (∃ x ∈ T0, e ≤ x.ev) → (eventOf (T0 :: others) e f).length = m → (∀ d < als.length, (eventOf (T0 :: others) e d).length ≤ m) →
        (∀ d < als.length, ∀ r < m, own r d < m) →
        (∀ x : Nat → Nat → Option ℝ × Option ℝ × Option ℝ, (∀ r < m, ∀ d a dut, als[d]? = some a → duts[d]? = some dut →
            x r d = globalPos beam a (((eventOf (T0 :: others) e d)[r]?).map (clusterHit dut))) →
          BTA.Find.Separated (telescopeSetting beam als zs extrap).setup m (fun r d => (x r d).1) (fun r d => (x r d).2.1) (fun r d => (x r d).2.2) (fun d r => own r d) f ds) →
        (out.filter fun row => decide (row.ev = e)).length = m ∧
        ∀ (r : Nat) (row : Row (Value ℝ)), (out.filter fun row => decide (row.ev = e))[r]? = some row → ∀ d dut, duts[d]? = some dut →
          candOf row d = ((eventOf (T0 :: others) e d)[own r d]?).map (clusterHit dut) := by
  have hnd : zs.Nodup := hz.nodup_iff.mpr List.nodup_range
  obtain ⟨merged, events, out, h1, h2, hrows, hcount, hcells, hTs, hTm, -⟩ := merge_find (telescopeSetting beam als zs extrap) hnd S cs hcs duts T0 others hd hs0 hs hm
  have hlt : (T0 :: others).length = als.length := by rw [hn, hd]; rfl
  refine ⟨merged, out, h1, h2, ?_, ?_⟩
  · intro row hrow
    obtain ⟨r, hr, rfl⟩ := List.mem_iff_getElem.mp hrow
    obtain ⟨-, src, -, hr'⟩ := BTA.FindFile.Props.C176_rows (telescopeSetting beam als zs extrap) hnd (show als.length ≤ 10 by omega) S cs hcs _ hTs hTm out h2
    obtain ⟨⟨i, hi, hie, -⟩, -, -⟩ := hr' r _ (List.getElem?_eq_getElem hr)
    rw [List.getElem?_map, Option.map_eq_some_iff] at hi
    obtain ⟨mi, hmi, rfl⟩ := hi
    have hmem := List.mem_of_getElem? hmi
    by_contra hc
    have h0 := hcount mi.1
    rw [if_neg (by rw [show mi.1 = out[r].ev from hie]; exact hc)] at h0
    have : (rowsFor Clust.ev (T0 :: others) events).filter (fun r => decide (r.1 = mi.1)) = [] := by
      rw [event_rows, h0]
      rfl
    rw [← hrows, List.filter_eq_nil_iff] at this
    exact this mi hmem (by simp)
  · intro e m own he hfirst hfew hrange hsep'
    have hfn : f < als.length := by
      rw [← List.mem_range, ← hz.mem_iff, hf]
      simp
    have hcnt : events.count e = m := by
      rw [hcount e, if_pos he]
      apply Nat.le_antisymm
      · exact maxMultiplicity_le _ _ _ fun d hd' => hfew d (by omega)
      · rw [← hfirst]
        exact le_maxMultiplicity _ _ _ (by omega)
    obtain ⟨Te, hTe⟩ : ∃ Te, Te = (merged.map (mergedRow duts)).filter fun t => decide (t.ev = e) := ⟨_, rfl⟩
    have hTe' : Te = (List.range m).map fun r => mergedRow duts (e, (T0 :: others).map fun T => nthOfEvent Clust.ev T e r) := by
      rw [hTe, hrows, merged_event, hcnt]
    have hlen : Te.length = m := by rw [hTe', List.length_map, List.length_range]
    have hcell : ∀ r < m, ∀ d dut, duts[d]? = some dut → ∀ row, Te[r]? = some row → hitOf d row.cols = ((eventOf (T0 :: others) e d)[r]?).map (clusterHit dut) := by
      intro r hr d dut hdut row hrow
      have hdl := (List.getElem?_eq_some_iff.mp hdut).1
      rw [hTe', List.getElem?_map, List.getElem?_range hr, Option.map_some] at hrow
      rw [← Option.some.inj hrow]
      exact hitOf_merged duts _ d dut _ hdut (nth_event (T0 :: others) e r d (by omega)) e
    have hpos : ∀ r < m, ∀ d a dut, als[d]? = some a → duts[d]? = some dut →
        posOf (telescopeSetting beam als zs extrap) Te r d = globalPos beam a (((eventOf (T0 :: others) e d)[r]?).map (clusterHit dut)) := by
      intro r hr d a dut ha hdut
      unfold posOf
      rw [List.getElem?_eq_getElem (l := Te) (i := r) (by omega)]
      dsimp only
      rw [← hcell r hr d dut hdut _ (List.getElem?_eq_getElem (l := Te) (i := r) (by omega))]
      change globalPos beam (alignmentOf als d) _ = _
      rw [alignmentOf_eq als d a ha]
    have hsep := hsep' (posOf (telescopeSetting beam als zs extrap) Te) hpos
    rw [← hlen] at hsep
    obtain ⟨g1, g2⟩ := BTA.FindFile.Props.C178_file (telescopeSetting beam als zs extrap) BTA.Find.Props.realFloats_ordered hnd (show als.length ≤ 10 by omega) S cs hcs _ hTs hTm out h2 e
      Te hTe (fun d r => own r d) f ds hsep
    refine ⟨by rw [g1, hlen], ?_⟩
    intro r row hrow d dut hdut
    have hr : r < m := by rw [← hlen, ← g1]; exact (List.getElem?_eq_some_iff.mp hrow).1
    have hdl := (List.getElem?_eq_some_iff.mp hdut).1
    obtain ⟨j, i, hi, hcol, hif⟩ := g2 r row hrow d (by show d ∈ zs; rw [hz.mem_iff, List.mem_range]; omega) (show d < als.length by omega)
    have hown := hrange d (by omega) r hr
    have ha := List.getElem?_eq_getElem (l := als) (i := d) (by omega)
    unfold candOf
    rw [hitOf_congr d _ _ hcol]
    rw [hpos _ hown d _ dut ha hdut] at hif
    have hj : j < m := by rw [← hlen]; exact (List.getElem?_eq_some_iff.mp hi).1
    cases hc : (eventOf (T0 :: others) e d)[own r d]? with
    | none =>
      rw [hc] at hif
      have hnone : (globalPos beam (alignmentOf als d) (hitOf d i.cols)).1.isNone = true := hif
      cases hh : hitOf d i.cols with
      | none => rfl
      | some h => rw [hh] at hnone; cases hnone
    | some c =>
      rw [hc] at hif
      have hj' : j = own r d := hif
      subst hj'
      rw [hcell _ hj d dut hdut i hi, hc]

/-- C185: `merge_cluster_data` followed by `find_tracks`, up to 10 DUTs, chunk size larger than the number of clusters of a DUT in each event. In every event with well separated
straight tracks, there is one track candidate for each track, and it has exactly the hits of this track: position and errors of its cluster, no hit in a DUT where it has no cluster. The
other events may contain anything. -/
theorem C185_candidates (duts : List (Bool × Pixels ℝ)) (als : List Alignment) (beam : Option Alignment) (hb : SamePlanes beam als) (hn : als.length = duts.length) (h10 : duts.length ≤ 10) (zs extrap : List Nat)
    (hz : zs.Perm (List.range als.length)) (f : Nat) (ds : List Nat) (hf : zs = f :: ds) (S : Sampling) (cs : Nat) (hcs : 0 < cs) (T0 : List (Clust ℝ)) (others : List (List (Clust ℝ)))
    (hd : duts.length = others.length + 1) (hs0 : SortedBy Clust.ev T0) (hs : ∀ T ∈ others, SortedBy Clust.ev T)
    (hm : ∀ T ∈ T0 :: others, ∀ e, BTA.Spec.multiplicity Clust.ev T e < cs) :
    ∃ merged out, mergeClusterData Clust.ev T0 others cs = .ok merged ∧
      findFile (telescopeSetting beam als zs extrap) S 0 cs (merged.map (mergedRow duts)) = some (out, none) ∧
      (∀ row ∈ out, ∃ x ∈ T0, row.ev ≤ x.ev) ∧
      ∀ (e : Int) (t : Truth), (∃ x ∈ T0, e ≤ x.ev) → Straight beam duts als (eventOf (T0 :: others) e) f t →
        (out.filter fun row => decide (row.ev = e)).length = t.m ∧
        ∀ (r : Nat) (row : Row (Value ℝ)), (out.filter fun row => decide (row.ev = e))[r]? = some row → ∀ d dut, duts[d]? = some dut →
          candOf row d = ((eventOf (T0 :: others) e d)[t.own r d]?).map (clusterHit dut) := by
  obtain ⟨merged, out, h1, h2, h3, h4⟩ := candidates_of_separated duts als beam hn h10 zs extrap hz f ds hf S cs hcs T0 others hd hs0 hs hm
  refine ⟨merged, out, h1, h2, h3, ?_⟩
  intro e t he hI
  exact h4 e t.m t.own he hI.first.1 hI.few hI.range fun x hx => separated_event beam duts als hb hn zs extrap hz f ds hf (eventOf (T0 :: others) e) t hI x hx

/-- The event numbers of the candidates are those of the merged table, and the hit flag says which DUTs have a hit. -/
theorem out_facts (duts : List (Bool × Pixels ℝ)) (als : List Alignment) (beam : Option Alignment) (hn : als.length = duts.length) (h10 : duts.length ≤ 10) (zs extrap : List Nat)
    (hz : zs.Perm (List.range als.length)) (S : Sampling) (cs : Nat) (hcs : 0 < cs) (T0 : List (Clust ℝ)) (others : List (List (Clust ℝ)))
    (hd : duts.length = others.length + 1) (hs0 : SortedBy Clust.ev T0) (hs : ∀ T ∈ others, SortedBy Clust.ev T)
    (hm : ∀ T ∈ T0 :: others, ∀ e, BTA.Spec.multiplicity Clust.ev T e < cs) (merged : _) (out : List (Row (Value ℝ)))
    (h1 : mergeClusterData Clust.ev T0 others cs = .ok merged)
    (h2 : findFile (telescopeSetting beam als zs extrap) S 0 cs (merged.map (mergedRow duts)) = some (out, none)) :
    SortedBy Row.ev out ∧ (∀ e, BTA.Spec.multiplicity Row.ev out e < cs) ∧
      ∀ row ∈ out, ∀ d < 32, row.flag.getLsbD d = true ↔ d < duts.length ∧ (candOf row d).isSome = true := by
  have hnd : zs.Nodup := hz.nodup_iff.mpr List.nodup_range
  obtain ⟨merged', events, out', h1', h2', -, -, hcells, hTs, hTm, -⟩ := merge_find (telescopeSetting beam als zs extrap) hnd S cs hcs duts T0 others hd hs0 hs hm
  have e1 : merged' = merged := by rw [h1'] at h1; exact Except.ok.inj h1
  subst e1
  obtain ⟨hlen, src, -, hrow⟩ := BTA.FindFile.Props.C176_rows (telescopeSetting beam als zs extrap) hnd (show als.length ≤ 10 by omega) S cs hcs _ hTs hTm out h2
  have hev : out.map Row.ev = (merged'.map (mergedRow duts)).map Row.ev := by
    apply List.ext_getElem?
    intro r
    rw [List.getElem?_map, List.getElem?_map]
    by_cases hr : r < out.length
    · obtain ⟨⟨i, hi, hie, -⟩, -⟩ := hrow r _ (List.getElem?_eq_getElem hr)
      rw [List.getElem?_eq_getElem hr, hi, Option.map_some, Option.map_some, hie]
    · rw [List.getElem?_eq_none (by omega), List.getElem?_eq_none (by omega)]
  refine ⟨?_, ?_, ?_⟩
  · unfold SortedBy at hTs ⊢
    have : ∀ l : List (Row (Value ℝ)), l.Pairwise (fun a b => a.ev ≤ b.ev) ↔ (l.map Row.ev).Pairwise (· ≤ ·) := fun l => List.pairwise_map.symm
    rw [this, hev, ← this]
    exact hTs
  · intro e
    have : ∀ l : List (Row (Value ℝ)), BTA.Spec.multiplicity Row.ev l e = (l.map Row.ev).count e := by
      intro l
      unfold BTA.Spec.multiplicity
      rw [List.count_eq_countP, List.countP_map, List.countP_eq_length_filter]
      rfl
    rw [this, hev, ← this]
    exact hTm e
  · intro row hmem d hd32
    obtain ⟨r, hr⟩ := List.getElem?_of_mem hmem
    obtain ⟨-, hcol, hflag⟩ := hrow r row hr
    rw [hflag d hd32, Bool.and_eq_true, decide_eq_true_iff]
    change d < als.length ∧ isFinite (row.cols (nameOf .x d)) = true ↔ _
    rw [hn]
    apply and_congr_right
    intro hdl
    obtain ⟨i, hi, -, hic⟩ := hcol d (show d < als.length by omega)
    rw [List.getElem?_map, Option.map_eq_some_iff] at hi
    obtain ⟨mi, hmi, rfl⟩ := hi
    have hl : d < mi.2.length := by rw [hcells mi (List.mem_of_getElem? hmi)]; exact hdl
    have hx : row.cols (nameOf .x d) = (mergedRow duts mi).cols (nameOf .x d) := hic Col.x.base (base_clean .x)
    have hcand : candOf row d = hitOf d (mergedRow duts mi).cols := hitOf_congr d _ _ hic
    rw [hx, hcand, hitOf_merged duts mi.2 d _ _ (List.getElem?_eq_getElem hdl) (List.getElem?_eq_getElem hl) mi.1,
      C179_columns duts mi.2 d _ _ _ (List.getElem?_eq_getElem hdl) (List.getElem?_eq_getElem hl) mi.1 .x]
    cases mi.2[d] <;> simp [cellValue, defaultValue, clusterValue, isFinite]

/-- C185: the hit flag of a candidate says which DUTs have seen the track. -/
theorem C185_flag (duts : List (Bool × Pixels ℝ)) (als : List Alignment) (beam : Option Alignment) (hb : SamePlanes beam als) (hn : als.length = duts.length) (h10 : duts.length ≤ 10) (zs extrap : List Nat)
    (hz : zs.Perm (List.range als.length)) (f : Nat) (ds : List Nat) (hf : zs = f :: ds) (S : Sampling) (cs : Nat) (hcs : 0 < cs) (T0 : List (Clust ℝ)) (others : List (List (Clust ℝ)))
    (hd : duts.length = others.length + 1) (hs0 : SortedBy Clust.ev T0) (hs : ∀ T ∈ others, SortedBy Clust.ev T)
    (hm : ∀ T ∈ T0 :: others, ∀ e, BTA.Spec.multiplicity Clust.ev T e < cs) (merged : _) (out : List (Row (Value ℝ)))
    (h1 : mergeClusterData Clust.ev T0 others cs = .ok merged)
    (h2 : findFile (telescopeSetting beam als zs extrap) S 0 cs (merged.map (mergedRow duts)) = some (out, none))
    (e : Int) (t : Truth) (he : ∃ x ∈ T0, e ≤ x.ev) (hI : Straight beam duts als (eventOf (T0 :: others) e) f t) (r : Nat) (row : Row (Value ℝ))
    (hr : (out.filter fun row => decide (row.ev = e))[r]? = some row) (d : Nat) (hd32 : d < 32) :
    row.flag.getLsbD d = true ↔ t.own r d < (eventOf (T0 :: others) e d).length := by
  obtain ⟨merged', out', h1', h2', -, h4⟩ := C185_candidates duts als beam hb hn h10 zs extrap hz f ds hf S cs hcs T0 others hd hs0 hs hm
  have e1 : merged' = merged := by rw [h1'] at h1; exact Except.ok.inj h1
  subst e1
  have e2 : out' = out := by rw [h2'] at h2; exact (Prod.mk.inj (Option.some.inj h2)).1
  subst e2
  obtain ⟨-, -, h3⟩ := out_facts duts als beam hn h10 zs extrap hz S cs hcs T0 others hd hs0 hs hm merged' out' h1' h2'
  rw [h3 row (List.mem_of_mem_filter (List.mem_of_getElem? hr)) d hd32]
  by_cases hdl : d < duts.length
  · rw [(h4 e t he hI).2 r row hr d _ (List.getElem?_eq_getElem hdl), Option.isSome_map]
    simp [hdl]
  · have : eventOf (T0 :: others) e d = [] := by
      unfold eventOf
      rw [List.getD_eq_getElem?_getD, List.getElem?_eq_none (by simp only [List.length_cons]; omega)]
      rfl
    rw [this]
    simp [hdl]

/-- Track `r` has clusters in two of the DUTs used for the fit. -/
def TwoFitHits (g : Config) (clusters : Nat → List (Clust ℝ)) (t : Truth) (r : Nat) : Prop :=
  ∃ d ∈ g.fitDuts, ∃ d' ∈ g.fitDuts, d ≠ d' ∧ t.own r d < (clusters d).length ∧ t.own r d' < (clusters d').length

theorem hitsOn_track (beam : Option Alignment) (duts : List (Bool × Pixels ℝ)) (g : Config) (hn : g.duts.length = duts.length) (clusters : Nat → List (Clust ℝ)) (f : Nat) (t : Truth)
    (hfd : ∀ d ∈ g.fitDuts, d < g.duts.length) (hI : Straight beam duts g.duts clusters f t) (r : Nat) (hr : r < t.m) (htwo : TwoFitHits g clusters t r) (c : Cand)
    (hc : ∀ d dut, duts[d]? = some dut → c d = ((clusters d)[t.own r d]?).map (clusterHit dut)) : HitsOn g c (t.p r) (t.v r) := by
  have hplaced : ∀ d a h, HasHit g c d a h → placed a h = t.at' r d := by
    rintro d a h ⟨ha, hh⟩
    have hd := (List.getElem?_eq_some_iff.mp ha).1
    have hdut := List.getElem?_eq_getElem (l := duts) (i := d) (by omega)
    rw [hc d _ hdut, Option.map_eq_some_iff] at hh
    obtain ⟨cl, hcl, rfl⟩ := hh
    exact placed_clusterHit a _ cl _ (hI.measured d a _ ha hdut r hr cl hcl)
  refine ⟨fun d _ a h hh => ⟨t.l r d, hplaced d a h hh⟩, ?_⟩
  obtain ⟨d, hd, d', hd', hne, ho, ho'⟩ := htwo
  have hl := hfd d hd
  have hl' := hfd d' hd'
  have hhit : ∀ d, d < g.duts.length → t.own r d < (clusters d).length → ∃ a h, HasHit g c d a h := by
    intro d hl ho
    refine ⟨g.duts[d], clusterHit duts[d] (clusters d)[t.own r d], List.getElem?_eq_getElem hl, ?_⟩
    rw [hc d _ (List.getElem?_eq_getElem (by omega)), List.getElem?_eq_getElem ho]
    rfl
  obtain ⟨a, h, hh⟩ := hhit d hl ho
  obtain ⟨a', h', hh'⟩ := hhit d' hl' ho'
  refine ⟨d, hd, d', hd', a, h, a', h', hh, hh', ?_⟩
  rw [hplaced d a h hh, hplaced d' a' h' hh']
  intro heq
  unfold Truth.at' at heq
  have h0 : (t.l r d - t.l r d') • t.v r = 0 := by
    rw [sub_smul, sub_eq_zero]
    exact add_left_cancel heq
  rcases smul_eq_zero.mp h0 with h0 | h0
  · exact hI.different d hl d' hl' hne r hr (sub_eq_zero.mp h0)
  · apply (hI.crosses d a hh.1 r hr).2
    refine ⟨0, 0, ?_⟩
    rw [h0]
    have : (![0, 0, 0] : Vec3) = 0 := by ext i; fin_cases i <;> rfl
    rw [this, Matrix.mulVec_zero]

/-- Candidates of straight tracks are fitted exactly. -/
theorem fit_truth (g : Config) (hsl : g.slices ≠ 0) (hsvd : Svd g) (hcv : Converges g) (hfd : ∀ d ∈ g.fitDuts, d < g.duts.length) (cands : List Cand)
    (p v : Nat → Vec3) (l : Nat → Nat → ℝ)
    (hon : ∀ i c, cands[i]? = some c → HitsOn g c (p i) (v i) ∧ (∀ d x, c d = some x → d < g.duts.length → x.z = 0) ∧
      ∀ d a, g.duts[d]? = some a → InPlane a (p i + l i d • v i) ∧ ¬ ∃ u w : ℝ, v i = (rotationMatrix a.alpha a.beta a.gamma).mulVec ![u, w, 0]) :
    ∃ ts, fitChunk g cands = .ok ts ∧ ts.length = cands.length ∧ ∀ (i : Nat) (t : Track), ts[i]? = some t →
      (∀ d a, g.duts[d]? = some a → ∃ e, t.est d = some e ∧ AtLocal a (p i + l i d • v i) (e.pos 0) (e.pos 1)) ∧
      ((∀ d ∈ g.fitDuts, g.shift d = (0, 0)) → t.chi2 = 0 ∧ t.chi2Red = 0) := by
  have hok : ∃ ts, fitChunk g cands = .ok ts := by
    cases hfc : fitChunk g cands with
    | ok ts => exact ⟨ts, rfl⟩
    | error e =>
      exfalso
      rcases (BTA.Line.Props.C146_raises_iff g hsl hsvd cands).mp ⟨e, hfc⟩ with ⟨d, -, hdl, c, hc, x, hx, hbad⟩ | ⟨a, ha, c, hc, w, hw, u, u', hpar⟩
      · obtain ⟨i, hi⟩ := List.getElem?_of_mem hc
        rw [(hon i c hi).2.1 d x hx hdl] at hbad
        norm_num at hbad
      · obtain ⟨i, hi⟩ := List.getElem?_of_mem hc
        obtain ⟨h1, -, h3⟩ := hon i c hi
        obtain ⟨k, -, hk, -, hor⟩ := BTA.Line.Props.fit_on g hsvd _ _ _ h1 w hw
        obtain ⟨d, hdl, rfl⟩ := List.mem_iff_getElem.mp ha
        apply (h3 d _ (List.getElem?_eq_getElem hdl)).2
        have hv1 := (hsvd _ _ hw).1
        have hvv : ∃ k' : ℝ, v i = k' • w := by
          rcases BTA.Line.Props.orient_unit_smul w hv1 with h | h
          · refine ⟨k⁻¹, ?_⟩
            rw [← h, hor, smul_smul, inv_mul_cancel₀ hk, one_smul]
          · refine ⟨-k⁻¹, ?_⟩
            rw [neg_smul, ← smul_neg, ← h, hor, smul_smul, inv_mul_cancel₀ hk, one_smul]
        obtain ⟨k', hk'⟩ := hvv
        refine ⟨k' * u, k' * u', ?_⟩
        rw [hk', hpar, ← Matrix.mulVec_smul]
        congr 1
        ext i
        fin_cases i <;> simp
  obtain ⟨ts, hts⟩ := hok
  obtain ⟨hlen, -⟩ := fitChunk_ok g hsl _ ts hts
  refine ⟨ts, hts, hlen, ?_⟩
  intro i t ht
  have hil : i < cands.length := by rw [← hlen]; exact (List.getElem?_eq_some_iff.mp ht).1
  have hc := List.getElem?_eq_getElem hil
  obtain ⟨h1, h2, h3⟩ := hon i _ hc
  refine ⟨?_, ?_⟩
  · intro d a ha
    obtain ⟨e, he⟩ : ∃ e, t.est d = some e := by
      exact Option.isSome_iff_exists.mp (((BTA.Line.Props.C146_all g hsl hcv _ ts hts).2 i t ht d).mpr (List.getElem?_eq_some_iff.mp ha).1)
    refine ⟨e, he, ?_⟩
    obtain ⟨⟨u, w, hl⟩, -⟩ := h3 d a ha
    obtain ⟨-, -, hx⟩ := BTA.Line.Props.C144_line g hsl hsvd _ ts hts i _ t hc ht _ _ h1 d a e ha he
    obtain ⟨e0, e1⟩ := hx ⟨u, w, 0, 0, 0⟩ rfl ⟨l i d, hl.symm⟩
    rw [e0, e1]
    exact hl
  · intro hsh
    exact BTA.Line.Props.C145_line g hsl hsvd _ ts hts i _ t hc ht _ _ h1 (fun d hd x hx => h2 d x hx (hfd d hd)) hsh

/-- The row has hits in two of the DUTs used for the fit. -/
def FitHits (g : Config) (c : Cand) : Prop := ∃ d ∈ g.fitDuts, ∃ d' ∈ g.fitDuts, d ≠ d' ∧ (c d).isSome = true ∧ (c d').isSome = true

/-- C186: the complete chain `merge_cluster_data`, `find_tracks`, `fit_tracks` (straight line fit). If all events (up to the last event of DUT 0) consist of well separated straight tracks,
then every event has one candidate for each track, with the clusters of the track; and the fit of any set of candidates with hits in two of the fit DUTs ends without exception; the position of a
candidate's track stored for a DUT is where the true track crosses it, for all DUTs, with or without hit, and chi2 is zero if the residuals are not corrected. -/
theorem C186_tracks (duts : List (Bool × Pixels ℝ)) (g : Config) (beam : Option Alignment) (hb : SamePlanes beam g.duts) (hn : g.duts.length = duts.length) (h10 : duts.length ≤ 10) (zs extrap : List Nat)
    (hz : zs.Perm (List.range g.duts.length)) (f : Nat) (ds : List Nat) (hf : zs = f :: ds) (S : Sampling) (cs : Nat) (hcs : 0 < cs) (T0 : List (Clust ℝ)) (others : List (List (Clust ℝ)))
    (hd : duts.length = others.length + 1) (hs0 : SortedBy Clust.ev T0) (hs : ∀ T ∈ others, SortedBy Clust.ev T)
    (hm : ∀ T ∈ T0 :: others, ∀ e, BTA.Spec.multiplicity Clust.ev T e < cs) (hsl : g.slices ≠ 0) (hsvd : Svd g) (hcv : Converges g)
    (truth : Int → Truth)
    (hI : ∀ e, (∃ x ∈ T0, e ≤ x.ev) → Straight beam duts g.duts (eventOf (T0 :: others) e) f (truth e)) :
    ∃ merged out, mergeClusterData Clust.ev T0 others cs = .ok merged ∧
      findFile (telescopeSetting beam g.duts zs extrap) S 0 cs (merged.map (mergedRow duts)) = some (out, none) ∧
      (∀ row ∈ out, ∃ x ∈ T0, row.ev ≤ x.ev) ∧
      (∀ e, (∃ x ∈ T0, e ≤ x.ev) → (out.filter fun row => decide (row.ev = e)).length = (truth e).m ∧
        ∀ (r : Nat) (row : Row (Value ℝ)), (out.filter fun row => decide (row.ev = e))[r]? = some row → ∀ d dut, duts[d]? = some dut →
          candOf row d = ((eventOf (T0 :: others) e d)[(truth e).own r d]?).map (clusterHit dut)) ∧
      ∀ fitDuts : List Nat, (∀ d ∈ fitDuts, d < g.duts.length) →
      ∀ rows : List (Row (Value ℝ)), (∀ row ∈ rows, row ∈ out ∧ FitHits { g with fitDuts := fitDuts } (candOf row)) →
        ∃ ts, fitChunk { g with fitDuts := fitDuts } (rows.map candOf) = .ok ts ∧ ts.length = rows.length ∧
        ∀ (i : Nat) (row : Row (Value ℝ)) (t : Track), rows[i]? = some row → ts[i]? = some t →
          ∀ r, (out.filter fun row' => decide (row'.ev = row.ev))[r]? = some row → r < (truth row.ev).m ∧
            (∀ d a, g.duts[d]? = some a → ∃ e, t.est d = some e ∧ AtLocal a ((truth row.ev).at' r d) (e.pos 0) (e.pos 1)) ∧
            ((∀ d ∈ fitDuts, g.shift d = (0, 0)) → t.chi2 = 0 ∧ t.chi2Red = 0) := by
  obtain ⟨merged, out, h1, h2, hlast, hev⟩ := C185_candidates duts g.duts beam hb hn h10 zs extrap hz f ds hf S cs hcs T0 others hd hs0 hs hm
  refine ⟨merged, out, h1, h2, hlast, fun e he => hev e (truth e) he (hI e he), ?_⟩
  intro fitDuts hfd rows hrows
  have hrow : ∀ row ∈ rows, ∀ r, (out.filter fun row' => decide (row'.ev = row.ev))[r]? = some row → r < (truth row.ev).m ∧
      HitsOn { g with fitDuts := fitDuts } (candOf row) ((truth row.ev).p r) ((truth row.ev).v r) ∧ (∀ d x, candOf row d = some x → d < duts.length → x.z = 0) := by
    intro row hr r hr'
    have he := hlast row (hrows row hr).1
    obtain ⟨g1, g2⟩ := hev row.ev (truth row.ev) he (hI row.ev he)
    have hrm : r < (truth row.ev).m := by rw [← g1]; exact (List.getElem?_eq_some_iff.mp hr').1
    have htwo : TwoFitHits { g with fitDuts := fitDuts } (eventOf (T0 :: others) row.ev) (truth row.ev) r := by
      obtain ⟨d, hd1, d', hd2, hne, s1, s2⟩ := (hrows row hr).2
      have key : ∀ d ∈ fitDuts, (candOf row d).isSome = true → (truth row.ev).own r d < (eventOf (T0 :: others) row.ev d).length := by
        intro d hd' hsome
        rw [g2 r row hr' d _ (List.getElem?_eq_getElem (by have := hfd d hd'; omega)), Option.isSome_map] at hsome
        exact (List.getElem?_eq_some_iff.mp (Option.isSome_iff_exists.mp hsome).choose_spec).1
      exact ⟨d, hd1, d', hd2, hne, key d hd1 s1, key d' hd2 s2⟩
    refine ⟨hrm, hitsOn_track beam duts { g with fitDuts := fitDuts } hn _ f _ hfd (hI row.ev he) r hrm htwo _ (g2 r row hr'), ?_⟩
    intro d x hx hdl
    rw [g2 r row hr' d _ (List.getElem?_eq_getElem hdl), Option.map_eq_some_iff] at hx
    obtain ⟨c, -, rfl⟩ := hx
    exact clusterHit_z _ c
  have hsome : ∀ row ∈ rows, ∃ r : Nat, (out.filter fun row' => decide (row'.ev = row.ev))[r]? = some row := by
    intro row hr
    exact List.getElem?_of_mem (List.mem_filter.mpr ⟨(hrows row hr).1, by simp⟩)
  have key : ∀ rk : Row (Value ℝ) → Nat, (∀ row ∈ rows, (out.filter fun row' => decide (row'.ev = row.ev))[rk row]? = some row) →
      ∃ ts, fitChunk { g with fitDuts := fitDuts } (rows.map candOf) = .ok ts ∧ ts.length = rows.length ∧
        ∀ (i : Nat) (row : Row (Value ℝ)) (t : Track), rows[i]? = some row → ts[i]? = some t →
            (∀ d a, g.duts[d]? = some a → ∃ e, t.est d = some e ∧ AtLocal a ((truth row.ev).at' (rk row) d) (e.pos 0) (e.pos 1)) ∧
            ((∀ d ∈ fitDuts, g.shift d = (0, 0)) → t.chi2 = 0 ∧ t.chi2Red = 0) := by
    intro rk hrk
    let at' : Nat → Row (Value ℝ) := fun i => rows.getD i ⟨0, 0, fun _ => .nan⟩
    obtain ⟨ts, hts, hlen, hfit⟩ := fit_truth { g with fitDuts := fitDuts } hsl hsvd hcv hfd (rows.map candOf) (fun i => (truth (at' i).ev).p (rk (at' i)))
      (fun i => (truth (at' i).ev).v (rk (at' i))) (fun i d => (truth (at' i).ev).l (rk (at' i)) d) (by
        intro i c hc
        rw [List.getElem?_map, Option.map_eq_some_iff] at hc
        obtain ⟨row, hi, rfl⟩ := hc
        have hmem := List.mem_of_getElem? hi
        have hat : at' i = row := by
          show rows.getD i _ = row
          rw [List.getD_eq_getElem?_getD, hi]
          rfl
        obtain ⟨a1, a2, a3⟩ := hrow row hmem (rk row) (hrk row hmem)
        simp only [hat]
        refine ⟨a2, fun d x hx hdl => a3 d x hx (by rw [← hn]; exact hdl), ?_⟩
        intro d a ha
        exact (hI row.ev (hlast row (hrows row hmem).1)).crosses d a ha (rk row) a1)
    refine ⟨ts, hts, by rw [hlen, List.length_map], ?_⟩
    intro i row t hi ht
    have hat : at' i = row := by
      show rows.getD i _ = row
      rw [List.getD_eq_getElem?_getD, hi]
      rfl
    have := hfit i t ht
    simp only [hat] at this
    exact this
  choose! rk0 hrk0 using hsome
  obtain ⟨ts, hts, hlen, -⟩ := key rk0 hrk0
  refine ⟨ts, hts, hlen, ?_⟩
  intro i row t hi ht r hr
  refine ⟨(hrow row (List.mem_of_getElem? hi) r hr).1, ?_⟩
  classical
  obtain ⟨ts', hts', -, hfit⟩ := key (fun row' => if row' = row then r else rk0 row') (by
    intro row' hr'
    by_cases h : row' = row
    · subst h; simp only [if_true]; exact hr
    · simp only [if_neg h]; exact hrk0 row' hr')
  rw [hts] at hts'
  have e := Except.ok.inj hts'
  subst e
  have := hfit i row t hi ht
  simpa using this

/-! ### Example: three sensors at z = 0, 1, 2, one event with two tracks parallel to the z axis at x = 0 and x = 10. The second track has no cluster in DUT 1; in DUT 2 the clusters are
in the other order. -/

/-- A cluster with local position. -/
noncomputable def exClust (x : ℝ) : Clust ℝ := ⟨0, 0, 0, 0, 0, x, 0, 1, 1, 1, 0, 1, 0, 1, 1⟩

noncomputable def exTables : List (List (Clust ℝ)) := [[exClust 0, exClust 10], [exClust 0], [exClust 10, exClust 0]]

def exDuts : List (Bool × Pixels ℝ) := [(true, ⟨1, 1, 1, 1⟩), (true, ⟨1, 1, 1, 1⟩), (true, ⟨1, 1, 1, 1⟩)]

def exAls : List Alignment := [⟨0, 0, 0, 0, 0, 0⟩, ⟨0, 0, 1, 0, 0, 0⟩, ⟨0, 0, 2, 0, 0, 0⟩]

/-- The telescope is shifted sideways. -/
def exBeam : Option Alignment := some ⟨1, 2, 0, 0, 0, 0⟩

theorem exBeam_eq (q : Vec3) : beamPos exBeam q = ![q 0 + 1, q 1 + 2, q 2] := by
  unfold beamPos exBeam
  dsimp only
  have : q = ![q 0, q 1, q 2] := by ext i; fin_cases i <;> rfl
  rw [this, BTA.Line.Props.rotation_none]
  ext i
  fin_cases i <;> simp

theorem exPlanes : SamePlanes exBeam exAls := by
  have key : ∀ (z : ℝ) (q : Vec3), InPlane ⟨0, 0, z, 0, 0, 0⟩ q ↔ q 2 = z := by
    intro z q
    unfold InPlane AtLocal
    dsimp only
    constructor
    · rintro ⟨u, w, h⟩
      rw [BTA.Line.Props.rotation_none] at h
      rw [h]
      simp
    · intro h
      refine ⟨q 0, q 1, ?_⟩
      rw [BTA.Line.Props.rotation_none]
      ext i
      fin_cases i <;> simp [h]
  intro a ha q
  simp only [exAls, List.mem_cons, List.not_mem_nil, or_false] at ha
  rcases ha with rfl | rfl | rfl <;> rw [key, key, exBeam_eq] <;> simp

noncomputable def exTruth (e : Int) : Truth :=
  ⟨if e = 0 then 2 else 0, fun r => ![if r = 0 then 0 else 10, 0, 0], fun _ => ![0, 0, 1], fun _ d => d, fun r d => if d = 2 then 1 - r else r⟩

theorem exEvent (e : Int) (d : Nat) : eventOf exTables e d = if e = 0 then exTables.getD d [] else [] := by
  unfold eventOf
  by_cases he : e = 0
  · subst he
    rw [if_pos rfl]
    apply List.filter_eq_self.mpr
    intro c hc
    rcases d with _ | _ | _ | d <;> simp [exTables] at hc
    · rcases hc with rfl | rfl <;> rfl
    · subst hc; rfl
    · rcases hc with rfl | rfl <;> rfl
  · rw [if_neg he]
    apply List.filter_eq_nil_iff.mpr
    intro c hc
    have h0 : c.ev = 0 := by
      rcases d with _ | _ | _ | d <;> simp [exTables] at hc
      · rcases hc with rfl | rfl <;> rfl
      · subst hc; rfl
      · rcases hc with rfl | rfl <;> rfl
    rw [h0]
    simpa using fun h => he h.symm

theorem exStraight (e : Int) : Straight exBeam exDuts exAls (eventOf exTables e) 0 (exTruth e) := by
  by_cases he : e = 0
  · subst he
    have hE : ∀ d, eventOf exTables 0 d = exTables.getD d [] := fun d => by rw [exEvent, if_pos rfl]
    have hrot : ∀ u w : ℝ, (rotationMatrix 0 0 0).mulVec ![u, w, 0] = ![u, w, 0] := fun u w => BTA.Line.Props.rotation_none u w 0
    have hm : (exTruth 0).m = 2 := rfl
    have hd3 : ∀ d, d < exAls.length → d = 0 ∨ d = 1 ∨ d = 2 := by intro d hd; simp [exAls] at hd; omega
    have hals : ∀ d a, exAls[d]? = some a → d < 3 ∧ a = ⟨0, 0, d, 0, 0, 0⟩ := by
      intro d a h
      rcases d with _ | _ | _ | d <;> simp [exAls] at h <;> subst h <;> refine ⟨by omega, ?_⟩ <;> norm_num
    have hat : ∀ r d : Nat, (exTruth 0).at' r d = ![if r = 0 then 0 else 10, 0, (d : ℝ)] := by
      intro r d
      ext i
      fin_cases i <;> simp [Truth.at', exTruth]
    have hloc : ∀ (r d : Nat), AtLocal ⟨0, 0, d, 0, 0, 0⟩ ((exTruth 0).at' r d) (if r = 0 then 0 else 10) 0 := by
      intro r d
      unfold AtLocal
      rw [hrot, hat]
      ext i
      fin_cases i <;> simp
    refine ⟨⟨by rw [hE]; rfl, by intro r hr; rfl⟩, ?_, ?_, ?_, ?_, ?_, ?_, 1, one_pos, ?_⟩
    · intro d hd
      rw [hE]
      rcases hd3 d hd with rfl | rfl | rfl <;> simp [exTables, hm]
    · intro d hd r hr
      rw [hm] at hr ⊢
      rcases hd3 d hd with rfl | rfl | rfl <;> simp [exTruth] <;> omega
    · intro d hd r hr s hs
      rw [hm] at hr hs
      rcases hd3 d hd with rfl | rfl | rfl <;> simp [exTruth] <;> omega
    · intro d a ha r hr
      obtain ⟨-, rfl⟩ := hals d a ha
      refine ⟨⟨_, _, hloc r d⟩, ?_⟩
      rintro ⟨u, w, h⟩
      rw [hrot] at h
      have := congrFun h 2
      simp [exTruth] at this
    · intro d hd d' hd' hne r hr
      simp only [exTruth]
      exact fun h => hne (by exact_mod_cast h)
    · intro d a dut ha hdut r hr c hc
      obtain ⟨hd, rfl⟩ := hals d a ha
      have hx : clusterHit dut c = ⟨if r = 0 then 0 else 10, 0, 0, 1, 1⟩ := by
        rw [hE] at hc
        rw [hm] at hr
        have hr' : r = 0 ∨ r = 1 := by omega
        have hd' : d = 0 ∨ d = 1 ∨ d = 2 := by omega
        rcases hd' with rfl | rfl | rfl <;> rcases hr' with rfl | rfl <;> simp [exTables, exTruth, exDuts] at hc hdut <;> subst hc <;> subst hdut <;> simp [clusterHit, exClust]
      rw [hx]
      exact hloc r d
    · intro d hd hne r hr
      rw [hm] at hr
      refine ⟨by rw [exBeam_eq, exBeam_eq, hat, hat]; simp [sideways], ?_⟩
      intro s hs hrs
      rw [hm] at hs
      rw [exBeam_eq, exBeam_eq, hat, hat]
      have e4 : (4 : ℝ) ≤ Real.sqrt ((10 : ℝ) ^ 2) := by rw [Real.sqrt_sq (by norm_num)]; norm_num
      have hr' : r = 0 ∨ r = 1 := by omega
      have hs' : s = 0 ∨ s = 1 := by omega
      rcases hr' with rfl | rfl <;> rcases hs' with rfl | rfl
      · exact absurd rfl hrs
      · simpa [sideways] using e4
      · simpa [sideways] using e4
      · exact absurd rfl hrs
  · have hm : (exTruth e).m = 0 := by simp [exTruth, he]
    have hE : ∀ d, eventOf exTables e d = [] := fun d => by rw [exEvent, if_neg he]
    refine ⟨⟨by rw [hE, hm]; rfl, ?_⟩, ?_, ?_, ?_, ?_, ?_, ?_, 1, one_pos, ?_⟩
    · intro r hr; omega
    · intro d _; rw [hE]; exact Nat.zero_le _
    · intro d _ r hr; omega
    · intro d _ r hr; omega
    · intro d a _ r hr; omega
    · intro d _ d' _ _ r hr; omega
    · intro d a dut _ _ r hr; omega
    · intro d _ _ r hr; omega

/-- C185, C186: both tracks are found and fitted. -/
example (S : Sampling) : ∃ (g : Config) (merged : _) (out : List (Row (Value ℝ))) (ts : List Track),
    mergeClusterData Clust.ev [exClust 0, exClust 10] [[exClust 0], [exClust 10, exClust 0]] 10 = .ok merged ∧
    findFile (telescopeSetting exBeam g.duts [0, 1, 2] [0, 1, 2]) S 0 10 (merged.map (mergedRow exDuts)) = some (out, none) ∧
    (out.filter fun row => decide (row.ev = 0)).length = 2 ∧ fitChunk g (out.map candOf) = .ok ts ∧ ts.length = out.length := by
  obtain ⟨svd0, h0⟩ := BTA.AlignTel.exists_svd
  let g : Config := ⟨exAls, [0, 2], fun _ => (0, 0), fun rows => some (svd0 rows), 4, fun _ => 0⟩
  have hT : ∀ T ∈ exTables, ∀ c ∈ T, c.ev = 0 := by
    intro T hT c hc
    simp only [exTables, List.mem_cons, List.not_mem_nil, or_false] at hT
    rcases hT with rfl | rfl | rfl <;> simp only [List.mem_cons, List.not_mem_nil, or_false] at hc
    · rcases hc with rfl | rfl <;> rfl
    · subst hc; rfl
    · rcases hc with rfl | rfl <;> rfl
  have hsorted : ∀ T ∈ exTables, SortedBy Clust.ev T := by
    intro T hT'
    unfold SortedBy
    apply List.pairwise_of_forall_mem_list
    intro a ha b hb
    rw [hT T hT' a ha, hT T hT' b hb]
  obtain ⟨merged, out, h1, h2, hl, h3, h4⟩ := C186_tracks exDuts g exBeam exPlanes rfl (by decide) [0, 1, 2] [0, 1, 2] (show [0, 1, 2].Perm (List.range 3) by decide) 0 [1, 2] rfl S 10 (by decide) [exClust 0, exClust 10]
    [[exClust 0], [exClust 10, exClust 0]] rfl (hsorted _ (by simp [exTables])) (fun T h => hsorted T (by simp [exTables] at h ⊢; tauto))
    (by
      intro T h e
      refine lt_of_le_of_lt (List.length_filter_le _ _) ?_
      simp only [List.mem_cons, List.not_mem_nil, or_false] at h
      rcases h with rfl | rfl | rfl <;> decide)
    (show 4 ≠ 0 by decide) (by
      intro rows v hv
      rw [← Option.some.inj hv]
      exact h0 rows) (fun _ => rfl) exTruth (fun e _ => exStraight e)
  obtain ⟨ts, h5, h6, -⟩ := h4 [0, 2] (show ∀ d ∈ [0, 2], d < 3 by decide) out (by
    intro row hrow
    refine ⟨hrow, 0, show 0 ∈ [0, 2] by decide, 2, show 2 ∈ [0, 2] by decide, by decide, ?_⟩
    obtain ⟨g1, g2⟩ := h3 row.ev (hl row hrow)
    obtain ⟨r, hr⟩ := List.getElem?_of_mem (show row ∈ out.filter fun row' => decide (row'.ev = row.ev) from List.mem_filter.mpr ⟨hrow, by simp⟩)
    have hrm : r < (exTruth row.ev).m := by rw [← g1]; exact (List.getElem?_eq_some_iff.mp hr).1
    have he : row.ev = 0 := by
      by_contra he
      simp [exTruth, he] at hrm
    rw [he] at hrm hr g2
    have hr2 : r < 2 := hrm
    constructor
    · rw [g2 r row hr 0 _ rfl, show eventOf ([exClust 0, exClust 10] :: [[exClust 0], [exClust 10, exClust 0]]) 0 0 = _ from exEvent 0 0]
      simp [exTables, exTruth]
      omega
    · rw [g2 r row hr 2 _ rfl, show eventOf ([exClust 0, exClust 10] :: [[exClust 0], [exClust 10, exClust 0]]) 0 2 = _ from exEvent 0 2]
      simp [exTables, exTruth])
  exact ⟨g, merged, out, ts, h1, h2, (h3 0 ⟨exClust 0, by simp, by simp [exClust]⟩).1, h5, h6⟩

end BTA.Chain.Props
