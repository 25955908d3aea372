import Verif.Props.Chain
/-
C187: track finding with `align_to_beam`.
-/
namespace BTA.Chain.Props
open BTA.Chain BTA.MergedColumns BTA.Line BTA.Dut BTA.Geo BTA.Spec BTA.Merge BTA.FindFile
open BTA.Fit (Sampling)

/-- C187: for all positions of the telescope, two hits of a track in the coordinates of the beam are extrapolated to the plane of the DUT without the telescope: `q` is a point of the moved
track in the plane that was not moved. -/
theorem C187_unmoved_plane (beam : Option Alignment) (als : List Alignment) (zs extrap : List Nat) (t : BTA.Find.Tracks (Option ℝ)) (r d d1 d2 : Nat) (a : Alignment) (ha : als[d]? = some a)
    (p v q : Vec3) (l1 l2 : ℝ) (hl : l1 ≠ l2)
    (h1 : (t.x r d1, t.y r d1, t.z r d1) = (some (beamPos beam (p + l1 • v) 0), some (beamPos beam (p + l1 • v) 1), some (beamPos beam (p + l1 • v) 2)))
    (h2 : (t.x r d2, t.y r d2, t.z r d2) = (some (beamPos beam (p + l2 • v) 0), some (beamPos beam (p + l2 • v) 1), some (beamPos beam (p + l2 • v) 2)))
    (hq : ∃ p', beamPos beam p' = q ∧ OnLine p v p') (hplane : InPlane a q) (hcross : ∃ p', OnLine p v p' ∧ ¬ InPlane a (beamPos beam p')) :
    BTA.Find.extrapolate (telescopeSetting beam als zs extrap).setup t r d d1 d2 = (some (q 0), some (q 1)) := by
  obtain ⟨_, rfl, l, rfl⟩ := hq
  rw [beamPos_add] at h1 h2 hplane ⊢
  have key := BTA.Find.Props.extrapolate_real (telescopeSetting beam als zs extrap).setup rfl t r d d1 d2 (a.x, a.y, a.z)
    (let n := dutNormal a.alpha a.beta a.gamma; (n 0, n 1, n 2)) (beamPos beam p 0, beamPos beam p 1, beamPos beam p 2) (beamDir beam v 0, beamDir beam v 1, beamDir beam v 2) l1 l2 l
    (by rw [← alignmentOf_eq als d a ha]; rfl) (by rw [← alignmentOf_eq als d a ha]; rfl) h1 h2 hl ?_ ?_
  · exact key
  · obtain ⟨_, ⟨k, rfl⟩, hnot⟩ := hcross
    intro h0
    apply hnot
    rw [beamPos_add]
    have hd := (BTA.AlignTel.Props.contains_iff a (beamDir beam v)).mp h0
    obtain ⟨u, w, hd⟩ := hd
    have : beamPos beam p + k • beamDir beam v = (beamPos beam p + l • beamDir beam v) + (k - l) • beamDir beam v := by
      rw [sub_smul]
      abel
    rw [this, inPlane_add a _ _ hplane]
    refine ⟨(k - l) * u, (k - l) * w, ?_⟩
    rw [hd, ← Matrix.mulVec_smul]
    congr 1
    ext i
    fin_cases i <;> simp
  · obtain ⟨u, w, hpl⟩ := hplane
    have := BTA.AlignTel.Props.local_plane a u w
    rw [← show beamPos beam p + l • beamDir beam v = (rotationMatrix a.alpha a.beta a.gamma).mulVec ![u, w, 0] + BTA.AlignTel.pos a from hpl] at this
    exact this

/-- C187 (partial): the track is expected where it crosses the sensor, if the sensor plane is the same in the coordinates of the beam; in particular if `align_to_beam` is False or the telescope is
not moved. Missing: all other telescopes, where this is false, see `C187_swapped`. -/
theorem C187_expected_partial (beam : Option Alignment) (als : List Alignment) (hb : SamePlanes beam als) (zs extrap : List Nat) (t : BTA.Find.Tracks (Option ℝ)) (r d d1 d2 : Nat) (a : Alignment)
    (ha : als[d]? = some a) (p v q : Vec3) (l1 l2 : ℝ) (hl : l1 ≠ l2)
    (h1 : (t.x r d1, t.y r d1, t.z r d1) = (some (beamPos beam (p + l1 • v) 0), some (beamPos beam (p + l1 • v) 1), some (beamPos beam (p + l1 • v) 2)))
    (h2 : (t.x r d2, t.y r d2, t.z r d2) = (some (beamPos beam (p + l2 • v) 0), some (beamPos beam (p + l2 • v) 1), some (beamPos beam (p + l2 • v) 2)))
    (hq : OnLine p v q) (hplane : InPlane a q) (hcross : ∃ p', OnLine p v p' ∧ ¬ InPlane a p') :
    BTA.Find.extrapolate (telescopeSetting beam als zs extrap).setup t r d d1 d2 = (some (beamPos beam q 0), some (beamPos beam q 1)) := by
  have hm := List.mem_of_getElem? ha
  obtain ⟨p', hp', hn⟩ := hcross
  exact C187_unmoved_plane beam als zs extrap t r d d1 d2 a ha p v _ l1 l2 hl h1 h2 ⟨q, rfl, hq⟩ ((hb a hm q).mpr hplane) ⟨p', hp', fun h => hn ((hb a hm p').mp h)⟩

theorem samePlanes_none (als : List Alignment) : SamePlanes none als := fun _ _ _ => Iff.rfl

theorem samePlanes_unmoved (als : List Alignment) : SamePlanes (some ⟨0, 0, 0, 0, 0, 0⟩) als := by
  intro a _ q
  have : beamPos (some ⟨0, 0, 0, 0, 0, 0⟩) q = q := by
    unfold beamPos
    dsimp only
    have : q = ![q 0, q 1, q 2] := by ext i; fin_cases i <;> rfl
    rw [this, BTA.Line.Props.rotation_none]
    ext i
    fin_cases i <;> simp
  rw [this]

/-! ### Two tracks of a telescope that is 96 mm away -/

/-- Clusters of two tracks: x = z and x = 100 - z. -/
noncomputable def swTables : List (List (Clust ℝ)) := [[exClust 0, exClust 100], [exClust 1, exClust 99], [exClust 2, exClust 98]]

/-- The telescope is 96 mm upstream. -/
def swBeam : Option Alignment := some ⟨0, 0, -96, 0, 0, 0⟩

noncomputable def swTruth : Truth := ⟨2, fun r => ![if r = 0 then 0 else 100, 0, 0], fun r => ![if r = 0 then 1 else -1, 0, 1], fun _ d => d, fun r _ => r⟩

theorem swBeam_eq (q : Vec3) : beamPos swBeam q = ![q 0, q 1, q 2 - 96] := by
  unfold beamPos swBeam
  dsimp only
  have : q = ![q 0, q 1, q 2] := by ext i; fin_cases i <;> rfl
  rw [this, BTA.Line.Props.rotation_none]
  ext i
  fin_cases i <;> simp [sub_eq_add_neg]

theorem swEvent (d : Nat) : eventOf swTables 0 d = swTables.getD d [] := by
  unfold eventOf
  apply List.filter_eq_self.mpr
  intro c hc
  rcases d with _ | _ | _ | d <;> simp [swTables] at hc <;> rcases hc with rfl | rfl <;> rfl

theorem swAls (d : Nat) (a : Alignment) (h : exAls[d]? = some a) : (d = 0 ∨ d = 1 ∨ d = 2) ∧ a = ⟨0, 0, d, 0, 0, 0⟩ := by
  rcases d with _ | _ | _ | d <;> simp [exAls] at h <;> subst h <;> refine ⟨by omega, ?_⟩ <;> norm_num

/-- Position of track `r` on DUT `d`. -/
noncomputable def swX (r d : Nat) : ℝ := if r = 0 then d else 100 - d

theorem swAt (r d : Nat) : swTruth.at' r d = ![swX r d, 0, (d : ℝ)] := by
  unfold swX
  ext i
  fin_cases i
  · simp only [Truth.at', swTruth]
    by_cases h : r = 0
    · simp [h]
    · simp [h, sub_eq_add_neg]
  · simp [Truth.at', swTruth]
  · simp [Truth.at', swTruth]

theorem swHit (d : Nat) (a : Alignment) (dut : Bool × Pixels ℝ) (ha : exAls[d]? = some a) (hdut : exDuts[d]? = some dut) (r : Nat) (hr : r < 2) :
    ((eventOf swTables 0 d)[r]?).map (clusterHit dut) = some ⟨swX r d, 0, 0, 1, 1⟩ := by
  rw [swEvent]
  obtain ⟨hd, -⟩ := swAls d a ha
  have hr' : r = 0 ∨ r = 1 := by omega
  rcases hd with rfl | rfl | rfl <;> rcases hr' with rfl | rfl <;> simp [exDuts] at hdut <;> subst hdut <;> simp [swTables, clusterHit, exClust, swX] <;> norm_num

theorem swStraight : Straight swBeam exDuts exAls (eventOf swTables 0) 0 swTruth := by
  have hrot : ∀ u w : ℝ, (rotationMatrix 0 0 0).mulVec ![u, w, 0] = ![u, w, 0] := fun u w => BTA.Line.Props.rotation_none u w 0
  have hm : swTruth.m = 2 := rfl
  have hd3 : ∀ d, d < exAls.length → d = 0 ∨ d = 1 ∨ d = 2 := by intro d hd; simp [exAls] at hd; omega
  have hloc : ∀ (r d : Nat), AtLocal ⟨0, 0, d, 0, 0, 0⟩ (swTruth.at' r d) (swX r d) 0 := by
    intro r d
    unfold AtLocal
    rw [hrot, swAt]
    ext i
    fin_cases i <;> simp
  refine ⟨⟨by rw [swEvent]; rfl, fun r _ => rfl⟩, ?_, fun d _ r hr => hr, fun d _ r _ s _ h => h, ?_, ?_, ?_, 3, by norm_num, ?_⟩
  · intro d hd
    rw [swEvent]
    rcases hd3 d hd with rfl | rfl | rfl <;> simp [swTables, hm]
  · intro d a ha r hr
    obtain ⟨-, rfl⟩ := swAls d a ha
    refine ⟨⟨_, _, hloc r d⟩, ?_⟩
    rintro ⟨u, w, h⟩
    rw [hrot] at h
    have := congrFun h 2
    simp [swTruth] at this
  · intro d hd d' hd' hne r hr
    simp only [swTruth]
    exact fun h => hne (by exact_mod_cast h)
  · intro d a dut ha hdut r hr c hc
    have := swHit d a dut ha hdut r hr
    rw [show (eventOf swTables 0 d)[r]? = some c from hc, Option.map_some] at this
    rw [Option.some.inj this]
    obtain ⟨-, rfl⟩ := swAls d a ha
    exact hloc r d
  · intro d hd hne r hr
    rw [hm] at hr
    have habs : ∀ x : ℝ, Real.sqrt (x ^ 2) = |x| := Real.sqrt_sq_eq_abs
    have hr' : r = 0 ∨ r = 1 := by omega
    refine ⟨?_, ?_⟩
    · rw [swBeam_eq, swBeam_eq, swAt, swAt]
      rcases hd3 d hd with rfl | rfl | rfl <;> rcases hr' with rfl | rfl <;> simp [sideways, swX, habs] <;> norm_num
    · intro s hs hrs
      rw [hm] at hs
      have hs' : s = 0 ∨ s = 1 := by omega
      rw [swBeam_eq, swBeam_eq, swAt, swAt]
      rcases hd3 d hd with rfl | rfl | rfl <;> rcases hr' with rfl | rfl <;> rcases hs' with rfl | rfl <;>
        first | exact absurd rfl hrs | exact absurd rfl hne | (simp [sideways, swX, habs]; norm_num)

theorem swStraight_none : Straight none exDuts exAls (eventOf swTables 0) 0 swTruth := by
  have h := swStraight
  refine ⟨h.first, h.few, h.range, h.inj, h.crosses, h.different, h.measured, ?_⟩
  have hs : ∀ p q, sideways (beamPos swBeam p) (beamPos swBeam q) = sideways (beamPos none p) (beamPos none q) := by
    intro p q
    rw [swBeam_eq, swBeam_eq]
    simp [sideways, beamPos]
  have := h.separated
  simp only [hs] at this
  exact this

theorem swPos (x : Nat → Nat → Option ℝ × Option ℝ × Option ℝ)
    (hx : ∀ r < 2, ∀ d a dut, exAls[d]? = some a → exDuts[d]? = some dut → x r d = globalPos swBeam a (((eventOf swTables 0 d)[r]?).map (clusterHit dut)))
    (r : Nat) (hr : r < 2) (d : Nat) (hd : d < 3) : x r d = (some (swX r d), some 0, some ((d : ℝ) - 96)) := by
  have ha := List.getElem?_eq_getElem (l := exAls) (i := d) hd
  have hdut := List.getElem?_eq_getElem (l := exDuts) (i := d) hd
  rw [hx r hr d _ _ ha hdut, swHit d _ _ ha hdut r hr]
  obtain ⟨-, he⟩ := swAls d _ ha
  rw [he]
  unfold globalPos
  dsimp only
  rw [toBeam_eq, swBeam_eq, globalHit_eq]
  unfold placed
  dsimp only
  rw [BTA.Line.Props.rotation_none]
  simp

/-- Row of the hit: those of DUT 2 are exchanged. -/
def swOwn (r d : Nat) : Nat := if d = 2 then 1 - r else r

theorem swSeparated (x : Nat → Nat → Option ℝ × Option ℝ × Option ℝ)
    (hx : ∀ r < 2, ∀ d a dut, exAls[d]? = some a → exDuts[d]? = some dut → x r d = globalPos swBeam a (((eventOf swTables 0 d)[r]?).map (clusterHit dut))) :
    BTA.Find.Separated (telescopeSetting swBeam exAls [0, 1, 2] [0, 1, 2]).setup 2 (fun r d => (x r d).1) (fun r d => (x r d).2.1) (fun r d => (x r d).2.2) (fun d r => swOwn r d) 0 [1, 2] := by
  have hp := swPos x hx
  have hown : ∀ r < 2, ∀ d, swOwn r d < 2 := by intro r hr d; unfold swOwn; split <;> omega
  have habs : ∀ x : ℝ, Real.sqrt (x ^ 2) = |x| := Real.sqrt_sq_eq_abs
  refine BTA.Find.Props.separated_of_distance _ rfl 2 _ _ _ _ 0 [1, 2] rfl (fun d _ a ha => hown a ha d) (by decide) (by decide) ?_ 2
    (fun a d => (swX (swOwn a d) d, 0)) (fun a d => if d = 1 then (swX a 0, 0) else (swX (1 - a) 2, 0)) ?_ ?_ ?_ ?_
  · intro a ha
    rw [hp a ha 0 (by omega)]
    rfl
  · intro d hd a ha _
    have hd' : d < 3 := by simp at hd; omega
    dsimp only
    rw [hp _ (hown a ha d) d hd']
    exact ⟨rfl, rfl⟩
  · intro d hd a ha
    have hh : ∀ d < 3, BTA.Find.trackHit (telescopeSetting swBeam exAls [0, 1, 2] [0, 1, 2]).setup (fun r d => (x r d).1) (fun d r => swOwn r d) a d = true := by
      intro d hd'
      unfold BTA.Find.trackHit
      dsimp only
      rw [hp _ (hown a ha d) d hd']
      rfl
    simp only [List.mem_cons, List.not_mem_nil, or_false] at hd
    unfold BTA.Find.expectedAt
    rcases hd with rfl | rfl
    · have : BTA.Find.trackRefs (telescopeSetting swBeam exAls [0, 1, 2] [0, 1, 2]).setup (fun r d => (x r d).1) (fun d r => swOwn r d) a 1 = [0] := by
        unfold BTA.Find.trackRefs
        simp [telescopeSetting, List.takeWhile] at hh ⊢
        exact hh 0 (by omega)
      rw [this]
      dsimp only
      rw [hp a ha 0 (by omega)]
      simp
    · have : BTA.Find.trackRefs (telescopeSetting swBeam exAls [0, 1, 2] [0, 1, 2]).setup (fun r d => (x r d).1) (fun d r => swOwn r d) a 2 = [1, 0] := by
        unfold BTA.Find.trackRefs
        have h0 := hh 0 (by omega)
        have h1 := hh 1 (by omega)
        simp [telescopeSetting, List.takeWhile] at h0 h1 ⊢
        exact ⟨h0, h1⟩
      rw [this]
      dsimp only
      have ha' : a = 0 ∨ a = 1 := by omega
      have key := C187_unmoved_plane swBeam exAls [0, 1, 2] [0, 1, 2] (BTA.Find.trackHits (fun r d => (x r d).1) (fun r d => (x r d).2.1) (fun r d => (x r d).2.2) fun d r => swOwn r d)
        a 2 0 1 ⟨0, 0, 2, 0, 0, 0⟩ rfl ![if a = 0 then 0 else 100, 0, 0] ![if a = 0 then 1 else -1, 0, 1] ![swX (1 - a) 2, 0, 2] 0 1 (by norm_num) ?_ ?_ ?_ ?_ ?_
      · rw [key]
        simp
      · unfold BTA.Find.trackHits
        dsimp only
        rw [hp _ (hown a ha 0) 0 (by omega), swBeam_eq]
        rcases ha' with rfl | rfl <;> simp [swOwn, swX]
      · unfold BTA.Find.trackHits
        dsimp only
        rw [hp _ (hown a ha 1) 1 (by omega), swBeam_eq]
        rcases ha' with rfl | rfl <;> simp [swOwn, swX] <;> norm_num
      · refine ⟨_, ?_, 98, rfl⟩
        rw [swBeam_eq]
        ext i
        rcases ha' with rfl | rfl <;> fin_cases i <;> simp [swX] <;> norm_num
      · refine ⟨swX (1 - a) 2, 0, ?_⟩
        unfold AtLocal
        dsimp only
        rw [BTA.Line.Props.rotation_none]
        ext i
        fin_cases i <;> simp
      · refine ⟨_, ⟨0, rfl⟩, ?_⟩
        rintro ⟨u, w, h⟩
        unfold AtLocal at h
        dsimp only at h
        rw [BTA.Line.Props.rotation_none, swBeam_eq] at h
        have := congrFun h 2
        simp at this
        norm_num at this
  · intro d hd a ha _
    have ha' : a = 0 ∨ a = 1 := by omega
    simp only [List.mem_cons, List.not_mem_nil, or_false] at hd
    rcases hd with rfl | rfl <;> rcases ha' with rfl | rfl <;> simp [BTA.Find.Props.planeDist, swX, swOwn, habs] <;> norm_num
  · intro d hd a ha b hb hab
    have ha' : a = 0 ∨ a = 1 := by omega
    have hb' : b = 0 ∨ b = 1 := by omega
    simp only [List.mem_cons, List.not_mem_nil, or_false] at hd
    rcases hd with rfl | rfl <;> rcases ha' with rfl | rfl <;> rcases hb' with rfl | rfl <;>
      first | exact absurd rfl hab | (simp [BTA.Find.Props.planeDist, swX, habs]; norm_num)

/-- C187 is false for telescopes that are moved along the beam: two tracks, far apart and measured exactly, with clusters in all DUTs, so that C185 holds with `align_to_beam` False; with
`align_to_beam` True the hits of the last DUT are exchanged. -/
theorem C187_swapped (S : Sampling) : Straight swBeam exDuts exAls (eventOf swTables 0) 0 swTruth ∧ Straight none exDuts exAls (eventOf swTables 0) 0 swTruth ∧
    ∃ merged out, mergeClusterData Clust.ev [exClust 0, exClust 100] [[exClust 1, exClust 99], [exClust 2, exClust 98]] 10 = .ok merged ∧
      findFile (telescopeSetting swBeam exAls [0, 1, 2] [0, 1, 2]) S 0 10 (merged.map (mergedRow exDuts)) = some (out, none) ∧
      (out.filter fun row => decide (row.ev = 0)).length = 2 ∧
      ∀ (r : Nat) (row : Row (Value ℝ)), (out.filter fun row => decide (row.ev = 0))[r]? = some row →
        ∃ h, candOf row 2 = some h ∧ placed ⟨0, 0, 2, 0, 0, 0⟩ h = swTruth.at' (1 - r) 2 ∧ placed ⟨0, 0, 2, 0, 0, 0⟩ h ≠ swTruth.at' r 2 := by
  refine ⟨swStraight, swStraight_none, ?_⟩
  have hT : ∀ T ∈ swTables, ∀ c ∈ T, c.ev = 0 := by
    intro T hT c hc
    simp only [swTables, List.mem_cons, List.not_mem_nil, or_false] at hT
    rcases hT with rfl | rfl | rfl <;> simp only [List.mem_cons, List.not_mem_nil, or_false] at hc <;> rcases hc with rfl | rfl <;> rfl
  have hsorted : ∀ T ∈ swTables, SortedBy Clust.ev T := by
    intro T hT'
    unfold SortedBy
    apply List.pairwise_of_forall_mem_list
    intro a ha b hb
    rw [hT T hT' a ha, hT T hT' b hb]
  obtain ⟨merged, out, h1, h2, -, h4⟩ := candidates_of_separated exDuts exAls swBeam rfl (by decide) [0, 1, 2] [0, 1, 2] (show [0, 1, 2].Perm (List.range 3) by decide) 0 [1, 2] rfl S 10
    (by decide) [exClust 0, exClust 100] [[exClust 1, exClust 99], [exClust 2, exClust 98]] rfl (hsorted _ (by simp [swTables])) (fun T h => hsorted T (by simp [swTables] at h ⊢; tauto))
    (by
      intro T h e
      refine lt_of_le_of_lt (List.length_filter_le _ _) ?_
      simp only [List.mem_cons, List.not_mem_nil, or_false] at h
      rcases h with rfl | rfl | rfl <;> decide)
  obtain ⟨h5, h6⟩ := h4 0 2 swOwn ⟨exClust 0, by simp, by simp [exClust]⟩ swStraight.first.1 swStraight.few (by intro d _ r hr; unfold swOwn; split <;> omega) swSeparated
  refine ⟨merged, out, h1, h2, h5, ?_⟩
  intro r row hrow
  have hr : r < 2 := by rw [← h5]; exact (List.getElem?_eq_some_iff.mp hrow).1
  have h7 := h6 r row hrow 2 _ rfl
  have h8 := swHit 2 _ _ rfl rfl (1 - r) (by omega)
  refine ⟨_, h7.trans h8, ?_, ?_⟩
  · unfold placed
    dsimp only
    rw [BTA.Line.Props.rotation_none, swAt]
    ext i
    fin_cases i <;> simp
  · unfold placed
    dsimp only
    rw [BTA.Line.Props.rotation_none, swAt]
    intro h
    have := congrFun h 0
    have hr' : r = 0 ∨ r = 1 := by omega
    rcases hr' with rfl | rfl <;> simp [swX] at this <;> norm_num at this

/-- C187: a telescope that is shifted sideways by 1 and 2 mm; hits at (0, 0) and (1, 0) in the first two DUTs give (2, 0) in the third, in the coordinates of the beam (3, 2). -/
example (t : BTA.Find.Tracks (Option ℝ)) (h0 : (t.x 0 0, t.y 0 0, t.z 0 0) = (some 1, some 2, some 0)) (h1 : (t.x 0 1, t.y 0 1, t.z 0 1) = (some 2, some 2, some 1)) :
    BTA.Find.extrapolate (telescopeSetting exBeam exAls [0, 1, 2] [0, 1, 2]).setup t 0 2 0 1 = (some 3, some 2) := by
  have := C187_expected_partial exBeam exAls exPlanes [0, 1, 2] [0, 1, 2] t 0 2 0 1 ⟨0, 0, 2, 0, 0, 0⟩ rfl ![0, 0, 0] ![1, 0, 1] ![2, 0, 2] 0 1 (by norm_num)
    (by rw [h0, exBeam_eq]; simp) (by rw [h1, exBeam_eq]; simp; norm_num) ⟨2, by ext i; fin_cases i <;> simp⟩
    ⟨2, 0, by unfold AtLocal; dsimp only; rw [BTA.Line.Props.rotation_none]; ext i; fin_cases i <;> simp⟩
    ⟨_, ⟨0, rfl⟩, by
      rintro ⟨u, w, h⟩
      unfold AtLocal at h
      dsimp only at h
      rw [BTA.Line.Props.rotation_none] at h
      have := congrFun h 2
      simp at this⟩
  rw [this, exBeam_eq]
  norm_num

end BTA.Chain.Props
