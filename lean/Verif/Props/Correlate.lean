import Verif.Lemmas.Correlate
/-
C86: correlation histograms. C87: range of the histograms. C88: reduced background. C89: selection of the DUTs.
-/
namespace BTA.Corr
open BTA.Dut BTA.Geo BTA.Spec BTA.Corr.Spec

/-! ### Concrete case: two DUTs with 2 x 2 pixels of 100 um, one behind the other -/

/-- DUT at a position on the z axis. -/
noncomputable def demoPlane (z : ℝ) : Plane := ⟨⟨100, 100, 2, 2⟩, ⟨0, 0, z, 0, 0, 0⟩⟩

/-- The telescope. -/
noncomputable def demoTel : List Plane := [demoPlane 0, demoPlane 1000]

theorem demo_rotation : rotationMatrix 0 0 0 = 1 := by
  unfold rotationMatrix rotZ rotY rotX
  ext i j
  fin_cases i <;> fin_cases j <;> simp [Matrix.mul_apply, Fin.sum_univ_succ]

theorem demo_proper (z : ℝ) : Spec.Proper (demoPlane z) := by
  constructor <;> simp [demoPlane]

theorem demo_toGlobal (z : ℝ) (q : ℝ × ℝ) : toGlobal (demoPlane z) q 0 = q.1 ∧ toGlobal (demoPlane z) q 1 = q.2 := by
  constructor <;> (rw [toGlobal_coord]; simp [demoPlane, demo_rotation])

theorem demo_extended (z : ℝ) : Extended (demoPlane z) 0 ∧ Extended (demoPlane z) 1 := by
  constructor <;> (rw [extended_iff _ (demo_proper z)]; simp [demoPlane, demo_rotation])

theorem demo_planes : ∀ p ∈ demoTel, Spec.Proper p ∧ Extended p 0 ∧ Extended p 1 := by
  intro p hp
  simp only [demoTel, List.mem_cons, List.not_mem_nil, or_false] at hp
  rcases hp with rfl | rfl
  · exact ⟨demo_proper _, demo_extended _⟩
  · exact ⟨demo_proper _, demo_extended _⟩

/-- Both files; DUT 0 has hits in the events 0 and 3, DUT 1 in the event 3. -/
noncomputable def demoFiles : List Table := [⟨false, [⟨0, (1, 1)⟩, ⟨3, (2, 1)⟩]⟩, ⟨false, [⟨3, (2, 2)⟩]⟩]

theorem demo_sorted : ∀ t ∈ demoFiles, SortedBy Row.ev t.rows ∧ ∀ v, multiplicity Row.ev t.rows v < 10 := by
  intro t ht
  simp only [demoFiles, List.mem_cons, List.not_mem_nil, or_false] at ht
  rcases ht with rfl | rfl
  · refine ⟨by simp [SortedBy], fun v => by unfold BTA.Spec.multiplicity; exact lt_of_le_of_lt (List.length_filter_le _ _) (by simp)⟩
  · refine ⟨by simp [SortedBy], fun v => by unfold BTA.Spec.multiplicity; exact lt_of_le_of_lt (List.length_filter_le _ _) (by simp)⟩

theorem demo_valid : ValidSelection demoTel.length (selectDuts demoTel none) ((some [0] : Option (List Int)).getD (selectDuts demoTel none)) demoFiles := by
  constructor <;> simp [selectDuts, demoTel, demoFiles, List.range, List.range.loop]

theorem demo_inside (p : Plane) (hp : p ∈ demoTel) (t : Table) (ht : t ∈ demoFiles) : AllInsideSensor p t := by
  intro r hr
  have hpix : p.pixels = ⟨100, 100, 2, 2⟩ := by
    simp only [demoTel, List.mem_cons, List.not_mem_nil, or_false] at hp
    rcases hp with rfl | rfl <;> rfl
  simp only [demoFiles, List.mem_cons, List.not_mem_nil, or_false] at ht
  unfold InsideSensor localPos
  rw [hpix]
  rcases ht with rfl | rfl <;> simp only [List.mem_cons, List.not_mem_nil, or_false] at hr
  · rcases hr with rfl | rfl <;> norm_num [abs_lt]
  · subst hr
    norm_num [abs_lt]

theorem demo_axes (z : ℝ) : axes (demoPlane z) (100, 100) = .ok ⟨⟨-100, 2⟩, ⟨-100, 2⟩⟩ := by
  have h0 : halfSize (demoPlane z) 0 = 100 := by unfold halfSize; norm_num [demoPlane, demo_rotation]
  have h1 : halfSize (demoPlane z) 1 = 100 := by unfold halfSize; norm_num [demoPlane, demo_rotation]
  have h2 : ⌈(2 : ℝ)⌉₊ = 2 := by exact_mod_cast Nat.ceil_natCast (R := ℝ) 2
  rw [axes_eq _ (demo_proper z), h0, h1]
  norm_num [demoPlane, h2]

theorem demo_axes_mem (p : Plane) (hp : p ∈ demoTel) : axes p (100, 100) = .ok ⟨⟨-100, 2⟩, ⟨-100, 2⟩⟩ := by
  simp only [demoTel, List.mem_cons, List.not_mem_nil, or_false] at hp
  rcases hp with rfl | rfl
  · exact demo_axes _
  · exact demo_axes _

theorem demo_success (lead : Leading) : ∃ out, correlate demoTel demoFiles (100, 100) none (some [0]) 10 lead = (true, .ok out) := by
  apply correlate_exists demoTel none (some [0]) demoFiles (100, 100) (by norm_num) 10 lead demo_valid
  intro i hi
  obtain ⟨t, ht, htf⟩ := lookup_exists _ demoFiles demo_valid.oneFileEach i hi
  obtain ⟨h0, h1⟩ := demo_valid.inRange i hi
  have hp' : getDut demoTel i = some (demoTel[i.toNat]'(by omega)) := by
    unfold getDut
    rw [if_pos h0, List.getElem?_eq_getElem (by omega)]
  obtain ⟨q1, q2, q3⟩ := demo_planes _ (getDut_mem hp')
  refine ⟨_, t, hp', ht, q1, q2, q3, ?_, demo_sorted t htf⟩
  intro r hr'
  have := demo_inside _ (getDut_mem hp') t htf r hr'
  exact ⟨.inr ⟨this.1.le, this.2.le⟩, inHist_inside q1 (by norm_num) this q2 q3⟩

/-! ### C86 -/

/-- C86, all inputs: every pair of DUTs in the output has an x and a y histogram, and every bin contains the number of pairs (hit of the reference DUT, hit
of the other DUT) of the same event with the global position of the one in this column and of the other in this row, for every chunk size, resolution
and alignment; the first bin includes hits that are outside of the histogram by less than one bin. -/
theorem C86_counts_all (tel : List Plane) (files : List Table) (res : ℝ × ℝ) (select refs : Option (List Int)) (cs : Nat) (lead : Leading)
    (o : Bool) (out : List Entry) (hr : 0 < res.1 ∧ 0 < res.2) (hcs : 0 < cs) (hs : ∀ t ∈ files, SortedBy Row.ev t.rows)
    (h : correlate tel files res select refs cs lead = (o, .ok out)) (e : Entry) (he : e ∈ out) :
    ∃ P Q S T, getDut tel e.ref = some P ∧ getDut tel e.dut = some Q ∧ getFile (selectDuts tel select) files e.ref = some S ∧
      getFile (selectDuts tel select) files e.dut = some T ∧ ∀ i j,
        e.x i j = pairsInBinsOrBelow P Q S T 0 e.ra.x.start e.da.x.start res.1 i j ∧
        e.y i j = pairsInBinsOrBelow P Q S T 1 e.ra.y.start e.da.y.start res.2 i j := by
  obtain ⟨P, S, hP, hS, j, hj, e1, e2, -, -, -, -, hc⟩ := entry_spec hcs hs h e he
  refine ⟨P, j.dut, S, j.table, hP, hj.dut, hS, hj.file, fun i k => ?_⟩
  rw [(hc i k).1, (hc i k).2]
  unfold countX countY pairsInBinsOrBelow hitOf
  rw [hj.reference, hj.refPositions, e1, e2]
  constructor
  · apply pairCount_congr
    intro a ha b hb
    rw [← Bool.decide_and]
    exact decide_eq_decide.mpr (and_congr_right fun _ => and_congr (toIndex_or_below _ _ _ hr.1 i) (toIndex_or_below _ _ _ hr.1 k))
  · apply pairCount_congr
    intro a ha b hb
    rw [← Bool.decide_and]
    exact decide_eq_decide.mpr (and_congr_right fun _ => and_congr (toIndex_or_below _ _ _ hr.2 i) (toIndex_or_below _ _ _ hr.2 k))

/-- The hypotheses are met by the two DUTs above, with an entry for this pair. -/
example (lead : Leading) : ∃ out, correlate demoTel demoFiles (100, 100) none (some [0]) 10 lead = (true, .ok out) ∧ ∃ e ∈ out, e.ref = 0 ∧ e.dut = 1 ∧
    ∃ P Q S T, ∀ i j, e.x i j = pairsInBinsOrBelow P Q S T 0 e.ra.x.start e.da.x.start 100 i j := by
  obtain ⟨out, h⟩ := demo_success lead
  obtain ⟨-, -, h3⟩ := correlateRefs_pairs (correlate_ok h)
  obtain ⟨e, he, hx⟩ := List.mem_map.mp ((h3 0 1).mpr (by simp [selectDuts, demoTel, List.range, List.range.loop]))
  injection hx with hx1 hx2
  obtain ⟨P, Q, S, T, -, -, -, -, hc⟩ := C86_counts_all demoTel demoFiles (100, 100) none (some [0]) 10 lead true out (by norm_num) (by norm_num)
    (fun t ht => (demo_sorted t ht).1) h e he
  exact ⟨out, h, e, he, hx1, hx2, P, Q, S, T, fun i j => (hc i j).1⟩

/-- C86: if all hits are on their sensors, every bin contains exactly the pairs of hits of the same event with both positions in this bin. -/
theorem C86_counts (tel : List Plane) (files : List Table) (res : ℝ × ℝ) (select refs : Option (List Int)) (cs : Nat) (lead : Leading)
    (o : Bool) (out : List Entry) (hr : 0 < res.1 ∧ 0 < res.2) (hcs : 0 < cs) (hp : ∀ p ∈ tel, Spec.Proper p)
    (hs : ∀ t ∈ files, SortedBy Row.ev t.rows)
    (hon : ∀ i p t, getDut tel i = some p → getFile (selectDuts tel select) files i = some t → AllOnSensor p t)
    (h : correlate tel files res select refs cs lead = (o, .ok out)) (e : Entry) (he : e ∈ out) :
    ∃ P Q S T, getDut tel e.ref = some P ∧ getDut tel e.dut = some Q ∧ getFile (selectDuts tel select) files e.ref = some S ∧
      getFile (selectDuts tel select) files e.dut = some T ∧ ∀ i j,
        e.x i j = pairsInBins P Q S T 0 e.ra.x.start e.da.x.start res.1 i j ∧
        e.y i j = pairsInBins P Q S T 1 e.ra.y.start e.da.y.start res.2 i j := by
  obtain ⟨P, S, hP, hS, j, hj, e1, e2, -, -, -, -, hc⟩ := entry_spec hcs hs h e he
  refine ⟨P, j.dut, S, j.table, hP, hj.dut, hS, hj.file, fun i k => ?_⟩
  have onS : ∀ a ∈ S.rows, _ := fun a ha => start_le P (hp P (getDut_mem hP)) res hr j.ra hj.ra _ (hon _ P S hP hS a ha)
  have onT : ∀ a ∈ j.table.rows, _ := fun a ha =>
    start_le j.dut (hp _ (getDut_mem hj.dut)) res hr j.da hj.da _ (hon _ _ _ hj.dut hj.file a ha)
  rw [(hc i k).1, (hc i k).2]
  unfold countX countY pairsInBins hitOf
  rw [hj.reference, hj.refPositions, e1, e2]
  constructor
  · apply pairCount_congr
    intro a ha b hb
    rw [← Bool.decide_and]
    exact decide_eq_decide.mpr (and_congr_right fun _ =>
      and_congr (toIndex_iff _ _ _ hr.1 (onT b hb).1 i) (toIndex_iff _ _ _ hr.1 (onS a ha).1 k))
  · apply pairCount_congr
    intro a ha b hb
    rw [← Bool.decide_and]
    exact decide_eq_decide.mpr (and_congr_right fun _ =>
      and_congr (toIndex_iff _ _ _ hr.2 (onT b hb).2 i) (toIndex_iff _ _ _ hr.2 (onS a ha).2 k))

/-- The hit of DUT 0 in event 3 (second column, first row) and that of DUT 1 (second column, second row) are the only pair. -/
theorem demo_histogram {lead : Leading} {out : List Entry} (h : correlate demoTel demoFiles (100, 100) none (some [0]) 10 lead = (true, .ok out)) :
    ∃ e ∈ out, (∀ i j, e.x i j = if i = 1 ∧ j = 1 then 1 else 0) ∧ e.da.x.bins = 2 ∧ e.ra.x.bins = 2 := by
  obtain ⟨-, -, h3⟩ := correlateRefs_pairs (correlate_ok h)
  obtain ⟨e, he, hx⟩ := List.mem_map.mp ((h3 0 1).mpr (by simp [selectDuts, demoTel, List.range, List.range.loop]))
  injection hx with hx1 hx2
  obtain ⟨P, Q, S, T, hP, hQ, hS, hT, hc⟩ := C86_counts demoTel demoFiles (100, 100) none (some [0]) 10 lead true out (by norm_num) (by norm_num)
    (fun p hp => (demo_planes p hp).1) (fun t ht => (demo_sorted t ht).1) (fun i p t hp ht r hr =>
      have := demo_inside p (getDut_mem hp) t (List.of_mem_zip (lookup_mem ht)).2 r hr
      ⟨this.1.le, this.2.le⟩) h e he
  obtain ⟨P', S', hP', -, j, hj, e1, e2, -⟩ := entry_spec (by norm_num) (fun t ht => (demo_sorted t ht).1) h e he
  have a1 := hj.ra
  have a2 := hj.da
  rw [demo_axes_mem _ (getDut_mem hP')] at a1
  rw [demo_axes_mem _ (getDut_mem hj.dut)] at a2
  injection a1 with a1
  injection a2 with a2
  rw [e1, e2, ← a1, ← a2] at hc
  rw [hx1] at hP hS
  rw [hx2] at hQ hT
  have hP0 : P = demoPlane 0 := (Option.some.inj hP).symm
  have hQ0 : Q = demoPlane 1000 := (Option.some.inj hQ).symm
  have hS0 : S = ⟨false, [⟨0, (1, 1)⟩, ⟨3, (2, 1)⟩]⟩ := (Option.some.inj hS).symm
  have hT0 : T = ⟨false, [⟨3, (2, 2)⟩]⟩ := (Option.some.inj hT).symm
  refine ⟨e, he, fun i j => ?_, by rw [e2, ← a2], by rw [e1, ← a1]⟩
  rw [(hc i j).1, hP0, hQ0, hS0, hT0]
  have key : ∀ n : Nat, InBin (-100) 100 50 n ↔ n = 1 := by
    intro n
    unfold InBin
    constructor
    · rintro ⟨g1, g2⟩
      have g3 : (n : ℝ) < 2 := by linarith
      have g4 : (0 : ℝ) < n := by linarith
      norm_cast at g3 g4
      omega
    · rintro rfl
      norm_num
  unfold pairsInBins pairCount globalPos
  simp only [(demo_toGlobal _ _).1, (demo_toGlobal _ _).2]
  have l1 : localPos (demoPlane 0) false ⟨3, (2, 1)⟩ = (50, -50) := by norm_num [localPos, demoPlane]
  have l2 : localPos (demoPlane 1000) false ⟨3, (2, 2)⟩ = (50, 50) := by norm_num [localPos, demoPlane]
  simp only [List.flatMap_cons, List.flatMap_nil, List.map_cons, List.map_nil, List.append_nil, List.countP_append, List.countP_cons, List.countP_nil,
    Nat.zero_add]
  rw [if_neg (by simp), Nat.zero_add]
  refine if_congr ?_ rfl rfl
  refine (@decide_eq_true_iff _ (_)).trans ?_
  rw [(demo_toGlobal _ _).1, (demo_toGlobal _ _).1, l1, l2, key, key]
  simp

/-- The hypotheses are met by the two DUTs above. -/
example (lead : Leading) : ∃ out, correlate demoTel demoFiles (100, 100) none (some [0]) 10 lead = (true, .ok out) ∧ ∃ e ∈ out,
    e.x 1 1 = 1 ∧ e.x 0 0 = 0 ∧ e.x 1 0 = 0 := by
  obtain ⟨out, h⟩ := demo_success lead
  obtain ⟨e, he, hc, -⟩ := demo_histogram h
  exact ⟨out, h, e, he, by rw [hc]; simp, by rw [hc]; simp, by rw [hc]; simp⟩

/-- C86: the chunk size has no influence on the output. -/
theorem C86_chunk_size (tel : List Plane) (files : List Table) (res : ℝ × ℝ) (select refs : Option (List Int)) (cs cs' : Nat) (lead : Leading)
    (o o' : Bool) (out out' : List Entry) (hcs : 0 < cs) (hcs' : 0 < cs') (hs : ∀ t ∈ files, SortedBy Row.ev t.rows)
    (h : correlate tel files res select refs cs lead = (o, .ok out)) (h' : correlate tel files res select refs cs' lead = (o', .ok out')) :
    out = out' :=
  correlateRefs_unique hcs hcs' (fun _ _ ht => hs _ (List.of_mem_zip (lookup_mem ht)).2) (correlate_ok h) (correlate_ok h')

/-- Two chunk sizes for which the run succeeds. -/
example (lead : Leading) : ∃ out, correlate demoTel demoFiles (100, 100) none (some [0]) 10 lead = (true, .ok out) ∧
    ∀ o' out', correlate demoTel demoFiles (100, 100) none (some [0]) 2 lead = (o', .ok out') → out = out' := by
  obtain ⟨out, h⟩ := demo_success lead
  exact ⟨out, h, fun o' out' h' => C86_chunk_size demoTel demoFiles (100, 100) none (some [0]) 10 2 lead true o' out out' (by norm_num) (by norm_num)
    (fun t ht => (demo_sorted t ht).1) h h'⟩

/-- A hit of DUT 1 at x = -150, outside of the sensor and of the histogram, which begins at -100. -/
noncomputable def outsideFiles : List Table := [⟨false, [⟨3, (1, 1)⟩]⟩, ⟨true, [⟨3, (-150, 0)⟩]⟩]

/-- The first bin does contain hits that are not in it: positions from the file are not compared with the size of the sensor, and the index is cut
towards zero. -/
theorem C86_outside_counted (lead : Leading) :
    ∃ out, correlate demoTel outsideFiles (100, 100) none (some [0]) 10 lead = (true, .ok out) ∧ ∃ e ∈ out, e.ref = 0 ∧ e.dut = 1 ∧ e.x 0 0 = 1 ∧
      e.da.x.start = -100 ∧ globalPos (demoPlane 1000) true ⟨3, (-150, 0)⟩ 0 = -150 := by
  have hsorted : ∀ t ∈ outsideFiles, SortedBy Row.ev t.rows ∧ ∀ v, BTA.Spec.multiplicity Row.ev t.rows v < 10 := by
    intro t ht
    simp only [outsideFiles, List.mem_cons, List.not_mem_nil, or_false] at ht
    rcases ht with rfl | rfl
    · refine ⟨by simp [SortedBy], fun v => by unfold BTA.Spec.multiplicity; exact lt_of_le_of_lt (List.length_filter_le _ _) (by simp)⟩
    · refine ⟨by simp [SortedBy], fun v => by unfold BTA.Spec.multiplicity; exact lt_of_le_of_lt (List.length_filter_le _ _) (by simp)⟩
  have hvalid : ValidSelection demoTel.length (selectDuts demoTel none) ((some [0] : Option (List Int)).getD (selectDuts demoTel none)) outsideFiles := by
    constructor <;> simp [selectDuts, demoTel, outsideFiles, List.range, List.range.loop]
  have h0 : ∀ z, halfSize (demoPlane z) 0 = 100 := by intro z; unfold halfSize; norm_num [demoPlane, demo_rotation]
  have h1 : ∀ z, halfSize (demoPlane z) 1 = 100 := by intro z; unfold halfSize; norm_num [demoPlane, demo_rotation]
  have h2 : ⌈(2 : ℝ)⌉₊ = 2 := by exact_mod_cast Nat.ceil_natCast (R := ℝ) 2
  obtain ⟨out, h⟩ := correlate_exists demoTel none (some [0]) outsideFiles (100, 100) (by norm_num) 10 lead hvalid (by
    intro i hi
    have : i = 0 ∨ i = 1 := by simpa [selectDuts, demoTel, List.range, List.range.loop] using hi
    rcases this with rfl | rfl
    · refine ⟨demoPlane 0, ⟨false, [⟨3, (1, 1)⟩]⟩, rfl, rfl, demo_proper _, (demo_extended _).1, (demo_extended _).2, ?_, hsorted _ (by simp [outsideFiles])⟩
      intro r hr
      have hin : InsideSensor (demoPlane 0) (localPos (demoPlane 0) false r) := by
        simp only [List.mem_cons, List.not_mem_nil, or_false] at hr
        subst hr
        apply indices_inside _ (demo_proper 0) <;> norm_num [demoPlane]
      exact ⟨.inr ⟨hin.1.le, hin.2.le⟩, inHist_inside (demo_proper _) (by norm_num) hin (demo_extended _).1 (demo_extended _).2⟩
    · refine ⟨demoPlane 1000, ⟨true, [⟨3, (-150, 0)⟩]⟩, rfl, rfl, demo_proper _, (demo_extended _).1, (demo_extended _).2, ?_, hsorted _ (by simp [outsideFiles])⟩
      intro r hr
      refine ⟨.inl rfl, ?_⟩
      simp only [List.mem_cons, List.not_mem_nil, or_false] at hr
      subst hr
      unfold InHist globalPos
      rw [(demo_toGlobal _ _).1, (demo_toGlobal _ _).2, h0, h1]
      refine ⟨⟨0, (toIndex_or_below _ _ _ (by norm_num) 0).mpr (.inr ⟨rfl, ?_⟩), ?_⟩, ⟨1, (toIndex_or_below _ _ _ (by norm_num) 1).mpr (.inl ?_), ?_⟩⟩
      · norm_num [localPos, demoPlane, h2]
      · norm_num [h2]
      · norm_num [localPos, demoPlane, h2, InBin]
      · norm_num [h2])
  obtain ⟨-, -, h3⟩ := correlateRefs_pairs (correlate_ok h)
  obtain ⟨e, he, hx⟩ := List.mem_map.mp ((h3 0 1).mpr (by simp [selectDuts, demoTel, List.range, List.range.loop]))
  injection hx with hx1 hx2
  obtain ⟨P, Q, S, T, hP, hQ, hS, hT, hc⟩ := C86_counts_all demoTel outsideFiles (100, 100) none (some [0]) 10 lead true out (by norm_num) (by norm_num)
    (fun t ht => (hsorted t ht).1) h e he
  obtain ⟨P', S', hP', -, j, hj, e1, e2, -⟩ := entry_spec (by norm_num) (fun t ht => (hsorted t ht).1) h e he
  have a1 := hj.ra
  have a2 := hj.da
  rw [demo_axes_mem _ (getDut_mem hP')] at a1
  rw [demo_axes_mem _ (getDut_mem hj.dut)] at a2
  injection a1 with a1
  injection a2 with a2
  rw [e1, e2, ← a1, ← a2] at hc
  rw [hx1] at hP hS
  rw [hx2] at hQ hT
  have hP0 : P = demoPlane 0 := (Option.some.inj hP).symm
  have hQ0 : Q = demoPlane 1000 := (Option.some.inj hQ).symm
  have hS0 : S = ⟨false, [⟨3, (1, 1)⟩]⟩ := (Option.some.inj hS).symm
  have hT0 : T = ⟨true, [⟨3, (-150, 0)⟩]⟩ := (Option.some.inj hT).symm
  refine ⟨out, h, e, he, hx1, hx2, ?_, by rw [e2, ← a2], by unfold globalPos; rw [(demo_toGlobal _ _).1]; simp [localPos]⟩
  rw [(hc 0 0).1, hP0, hQ0, hS0, hT0]
  unfold pairsInBinsOrBelow pairCount InBinOrBelow InBin globalPos
  simp only [(demo_toGlobal _ _).1]
  norm_num [localPos, demoPlane, List.countP_cons]

/-! ### C87 -/

/-- C87: the axes of the histograms. The sensor is in the middle and fits in, and no smaller number of bins is enough. -/
theorem C87_axes (tel : List Plane) (files : List Table) (res : ℝ × ℝ) (select refs : Option (List Int)) (cs : Nat) (lead : Leading)
    (o : Bool) (out : List Entry) (hr : 0 < res.1 ∧ 0 < res.2) (hcs : 0 < cs) (hp : ∀ p ∈ tel, Spec.Proper p)
    (hs : ∀ t ∈ files, SortedBy Row.ev t.rows) (h : correlate tel files res select refs cs lead = (o, .ok out)) (e : Entry) (he : e ∈ out) :
    ∃ P Q, getDut tel e.ref = some P ∧ getDut tel e.dut = some Q ∧
      SmallestAxis P 0 res.1 e.ra.x ∧ SmallestAxis P 1 res.2 e.ra.y ∧ SmallestAxis Q 0 res.1 e.da.x ∧ SmallestAxis Q 1 res.2 e.da.y := by
  obtain ⟨P, S, hP, hS, j, hj, e1, e2, -⟩ := entry_spec hcs hs h e he
  have a := smallest_axes (hp P (getDut_mem hP)) hr hj.ra
  have b := smallest_axes (hp _ (getDut_mem hj.dut)) hr hj.da
  rw [e1, e2]
  exact ⟨P, j.dut, hP, hj.dut, a.1, a.2, b.1, b.2⟩

/-- The hypotheses are met by the two DUTs above; the histogram has two bins. -/
example (lead : Leading) : ∃ out, correlate demoTel demoFiles (100, 100) none (some [0]) 10 lead = (true, .ok out) ∧ ∃ e ∈ out,
    ∃ P Q, getDut demoTel 0 = some P ∧ getDut demoTel 1 = some Q ∧ SmallestAxis P 0 100 e.ra.x ∧ SmallestAxis Q 0 100 e.da.x := by
  obtain ⟨out, h⟩ := demo_success lead
  obtain ⟨-, -, h3⟩ := correlateRefs_pairs (correlate_ok h)
  obtain ⟨e, he, hx⟩ := List.mem_map.mp ((h3 0 1).mpr (by simp [selectDuts, demoTel, List.range, List.range.loop]))
  injection hx with hx1 hx2
  obtain ⟨P, Q, hP, hQ, hc, -, hd, -⟩ := C87_axes demoTel demoFiles (100, 100) none (some [0]) 10 lead true out (by norm_num) (by norm_num)
    (fun p hp => (demo_planes p hp).1) (fun t ht => (demo_sorted t ht).1) h e he
  exact ⟨out, h, e, he, P, Q, by rw [← hx1]; exact hP, by rw [← hx2]; exact hQ, hc, hd⟩

/-- C87: with a valid selection, sensors that are not seen edge-on and all hits inside of their sensors, `correlate` succeeds, if no event of a file has
as many hits as the chunk size. -/
theorem C87_success_partial (tel : List Plane) (files : List Table) (res : ℝ × ℝ) (select refs : Option (List Int)) (cs : Nat) (lead : Leading)
    (hr : 0 < res.1 ∧ 0 < res.2) (hp : ∀ p ∈ tel, Spec.Proper p ∧ Extended p 0 ∧ Extended p 1)
    (hv : ValidSelection tel.length (selectDuts tel select) (refs.getD (selectDuts tel select)) files)
    (hs : ∀ t ∈ files, SortedBy Row.ev t.rows ∧ ∀ v, multiplicity Row.ev t.rows v < cs)
    (hin : ∀ i p t, getDut tel i = some p → getFile (selectDuts tel select) files i = some t → AllInsideSensor p t) :
    ∃ out, correlate tel files res select refs cs lead = (true, .ok out) := by
  apply correlate_exists tel select refs files res hr cs lead hv
  intro i hi
  obtain ⟨t, ht, htf⟩ := lookup_exists _ files hv.oneFileEach i hi
  obtain ⟨h0, h1⟩ := hv.inRange i hi
  have hp' : getDut tel i = some (tel[i.toNat]'(by omega)) := by
    unfold getDut
    rw [if_pos h0, List.getElem?_eq_getElem (by omega)]
  obtain ⟨q1, q2, q3⟩ := hp _ (getDut_mem hp')
  refine ⟨_, t, hp', ht, q1, q2, q3, ?_, hs t htf⟩
  intro r hr'
  have := hin i _ t hp' ht r hr'
  exact ⟨.inr ⟨this.1.le, this.2.le⟩, inHist_inside q1 hr this q2 q3⟩

/-- The hypotheses are met by the two DUTs above. -/
example (lead : Leading) : ∃ out, correlate demoTel demoFiles (100, 100) none (some [0]) 10 lead = (true, .ok out) :=
  C87_success_partial demoTel demoFiles (100, 100) none (some [0]) 10 lead (by norm_num) demo_planes demo_valid demo_sorted
    fun _ p t hp ht => demo_inside p (getDut_mem hp) t (List.of_mem_zip (lookup_mem ht)).2

/-- Hits and clusters that are given by their indices are inside of the sensor: a mean of column and row numbers starting at 1. -/
theorem C87_indices_inside (p : Plane) (hp : Spec.Proper p) (r : Row) (h1 : 1 ≤ r.coord.1) (h2 : r.coord.1 ≤ p.pixels.nColumns) (h3 : 1 ≤ r.coord.2)
    (h4 : r.coord.2 ≤ p.pixels.nRows) : InsideSensor p (localPos p false r) :=
  indices_inside p hp r h1 h2 h3 h4

/-- The mean of the columns 1 and 2. -/
example : InsideSensor (demoPlane 0) (localPos (demoPlane 0) false ⟨0, (3 / 2, 1)⟩) :=
  C87_indices_inside (demoPlane 0) (demo_proper 0) ⟨0, (3 / 2, 1)⟩ (by norm_num) (by norm_num [demoPlane]) (by norm_num) (by norm_num [demoPlane])

/-- C87: after a run that succeeded, all hits that belong to a pair are below the upper end of the histograms: a hit at the upper edge
of the sensor is not possible if the size of the sensor is a multiple of the resolution. -/
theorem C87_upper_end (tel : List Plane) (files : List Table) (res : ℝ × ℝ) (select refs : Option (List Int)) (cs : Nat) (lead : Leading)
    (o : Bool) (out : List Entry) (hr : 0 < res.1 ∧ 0 < res.2) (hcs : 0 < cs) (hs : ∀ t ∈ files, SortedBy Row.ev t.rows)
    (h : correlate tel files res select refs cs lead = (o, .ok out)) (e : Entry) (he : e ∈ out) :
    ∃ P Q S T, getDut tel e.ref = some P ∧ getDut tel e.dut = some Q ∧ getFile (selectDuts tel select) files e.ref = some S ∧
      getFile (selectDuts tel select) files e.dut = some T ∧ ∀ r ∈ S.rows, ∀ d ∈ T.rows, r.ev = d.ev →
        (e.ra.x.start - res.1 < globalPos P S.positions r 0 ∧ globalPos P S.positions r 0 < e.ra.x.start + e.ra.x.bins * res.1) ∧
        (e.ra.y.start - res.2 < globalPos P S.positions r 1 ∧ globalPos P S.positions r 1 < e.ra.y.start + e.ra.y.bins * res.2) ∧
        (e.da.x.start - res.1 < globalPos Q T.positions d 0 ∧ globalPos Q T.positions d 0 < e.da.x.start + e.da.x.bins * res.1) ∧
        e.da.y.start - res.2 < globalPos Q T.positions d 1 ∧ globalPos Q T.positions d 1 < e.da.y.start + e.da.y.bins * res.2 := by
  obtain ⟨P, S, hP, hS, j, hj, e1, e2, -, -, -, hg, -⟩ := entry_spec hcs hs h e he
  refine ⟨P, j.dut, S, j.table, hP, hj.dut, hS, hj.file, fun r hr' d hd hev => ?_⟩
  have key : ∀ (start re x : ℝ) (n : Nat), 0 < re → (∃ i, toIndex start re x = some i ∧ i < n) → start - re < x ∧ x < start + n * re := by
    rintro start re x n hre ⟨i, hi, hin⟩
    have hin' : ((i : ℝ) + 1) ≤ n := by exact_mod_cast hin
    rcases (toIndex_or_below start re x hre i).mp hi with ⟨h1, h2⟩ | ⟨h1, h2, h3⟩
    · have : (0 : ℝ) ≤ i * re := by positivity
      refine ⟨by linarith, by nlinarith⟩
    · have : (0 : ℝ) ≤ n * re := by positivity
      exact ⟨h2, by linarith⟩
  obtain ⟨g1, g2, g3, g4⟩ := hg r hr' d hd hev
  unfold hitOf at g1 g2 g3 g4
  rw [hj.reference, hj.refPositions] at g2 g4
  rw [e1, e2]
  exact ⟨key _ _ _ _ hr.1 g2, key _ _ _ _ hr.2 g4, key _ _ _ _ hr.1 g1, key _ _ _ _ hr.2 g3⟩

/-- C87: if the size of the reference sensor is a multiple of the resolution, a hit on its right edge makes the result wrong or ends the program, as soon as
another DUT has a hit in this event. -/
theorem C87_edge_hit (tel : List Plane) (files : List Table) (res : ℝ × ℝ) (select refs : Option (List Int)) (cs : Nat) (lead : Leading)
    (hr : 0 < res.1 ∧ 0 < res.2) (hcs : 0 < cs) (hp : ∀ p ∈ tel, Spec.Proper p) (hs : ∀ t ∈ files, SortedBy Row.ev t.rows)
    (a b : Int) (ha : a ∈ refs.getD (selectDuts tel select)) (hb : b ∈ selectDuts tel select) (hab : b ≠ a) (P : Plane) (S T : Table)
    (hP : getDut tel a = some P) (hS : getFile (selectDuts tel select) files a = some S) (hT : getFile (selectDuts tel select) files b = some T)
    (r d : Row) (hr' : r ∈ S.rows) (hd : d ∈ T.rows) (hev : r.ev = d.ev) (n : Nat)
    (hn : ∀ q q', OnSensor P q → OnSensor P q' → toGlobal P q 0 - toGlobal P q' 0 ≤ n * res.1)
    (hedge : globalPos P S.positions r 0 = toGlobal P (0, 0) 0 + n * res.1 / 2) (o : Bool) (out : List Entry) :
    correlate tel files res select refs cs lead ≠ (o, .ok out) := by
  intro h
  obtain ⟨-, -, h3⟩ := correlateRefs_pairs (correlate_ok h)
  obtain ⟨e, he, hx⟩ := List.mem_map.mp ((h3 a b).mpr ⟨ha, hb, hab⟩)
  injection hx with hx1 hx2
  obtain ⟨P', Q', S', T', hP', -, hS', hT', hall⟩ := C87_upper_end tel files res select refs cs lead o out hr hcs hs h e he
  obtain ⟨P'', -, hP'', -, hax, -⟩ := C87_axes tel files res select refs cs lead o out hr hcs hp hs h e he
  rw [hx1] at hP' hP'' hS'
  rw [hx2] at hT'
  rw [hP] at hP' hP''
  rw [hS] at hS'
  rw [hT] at hT'
  injection hP' with hP'
  injection hP'' with hP''
  injection hS' with hS'
  injection hT' with hT'
  rw [← hP', ← hS', ← hT'] at hall
  rw [← hP''] at hax
  obtain ⟨⟨-, h1⟩, -⟩ := hall r hr' d hd hev
  have h2 := hax.smallest n hn
  have h4 := hax.centre
  have h5 : (e.ra.x.bins : ℝ) ≤ n := by exact_mod_cast h2
  rw [hedge] at h1
  nlinarith

/-- A hit of DUT 0 at x = 100, the right edge. -/
noncomputable def edgeFiles : List Table := [⟨true, [⟨3, (100, 0)⟩]⟩, ⟨true, [⟨3, (0, 0)⟩]⟩]

/-- The hypotheses are met by a hit on the edge of the sensor of 200 um with a resolution of 100 um. -/
example (lead : Leading) (o : Bool) (out : List Entry) : correlate demoTel edgeFiles (100, 100) none (some [0]) 10 lead ≠ (o, .ok out) := by
  have hsorted : ∀ t ∈ edgeFiles, SortedBy Row.ev t.rows := by
    intro t ht
    simp only [edgeFiles, List.mem_cons, List.not_mem_nil, or_false] at ht
    rcases ht with rfl | rfl <;> simp [SortedBy]
  refine C87_edge_hit demoTel edgeFiles (100, 100) none (some [0]) 10 lead (by norm_num) (by norm_num) (fun p hp => (demo_planes p hp).1) hsorted
    0 1 (by simp) (by simp [selectDuts, demoTel, List.range, List.range.loop]) (by decide) (demoPlane 0) ⟨true, [⟨3, (100, 0)⟩]⟩ ⟨true, [⟨3, (0, 0)⟩]⟩ rfl rfl rfl
    ⟨3, (100, 0)⟩ ⟨3, (0, 0)⟩ (by simp) (by simp) rfl 2 ?_ ?_ o out
  · intro q q' hq hq'
    have h1 := abs_le.mp hq.1
    have h2 := abs_le.mp hq'.1
    rw [(demo_toGlobal _ _).1, (demo_toGlobal _ _).1]
    norm_num [demoPlane] at h1 h2 ⊢
    linarith
  · unfold globalPos
    rw [(demo_toGlobal _ _).1, (demo_toGlobal _ _).1]
    norm_num [localPos]

/-! ### C88 -/

/-- C88: the histograms with reduced background are the histograms minus the integer part of the term of the largest singular value, minus a
constant. No value is negative and the smallest is zero. -/
theorem C88_reduced (tel : List Plane) (files : List Table) (res : ℝ × ℝ) (select refs : Option (List Int)) (cs : Nat) (lead : Leading)
    (o : Bool) (out : List Entry) (hcs : 0 < cs) (hs : ∀ t ∈ files, SortedBy Row.ev t.rows)
    (h : correlate tel files res select refs cs lead = (o, .ok out)) (e : Entry) (he : e ∈ out) (n m : Nat) (hist : Hist2) (reduced : Nat → Nat → Int)
    (hx : (n, m, hist, reduced) = (e.da.x.bins, e.ra.x.bins, e.x, e.xReduced) ∨ (n, m, hist, reduced) = (e.da.y.bins, e.ra.y.bins, e.y, e.yReduced)) :
    (∃ c : Int, ∀ i j, ∃ bg : Int, IntegerPart (lead n m hist i j) bg ∧ reduced i j = hist i j - bg - c) ∧
    (∀ i < n, ∀ j < m, 0 ≤ reduced i j) ∧ ∃ i < n, ∃ j < m, reduced i j = 0 := by
  obtain ⟨P, S, hP, hS, j, hj, e1, e2, hb, rx, ry, -⟩ := entry_spec hcs hs h e he
  have key : ∀ (n m : Nat) (hist : Hist2), n ≠ 0 → m ≠ 0 →
      (∃ c : Int, ∀ i j, ∃ bg : Int, IntegerPart (lead n m hist i j) bg ∧ Corr.reduced lead n m hist i j = hist i j - bg - c) ∧
      (∀ i < n, ∀ j < m, 0 ≤ Corr.reduced lead n m hist i j) ∧ ∃ i < n, ∃ j < m, Corr.reduced lead n m hist i j = 0 := by
    intro n m hist hn hm
    obtain ⟨h1, i, hi, k, hk, h2⟩ := minimum_spec n m hn hm (withoutBackground lead n m hist)
    refine ⟨⟨minimum n m (withoutBackground lead n m hist), fun i j => ⟨_, toInt_spec _, rfl⟩⟩, ?_, ⟨i, hi, k, hk, ?_⟩⟩
    · intro i hi k hk
      have := h1 i hi k hk
      unfold Corr.reduced
      omega
    · unfold Corr.reduced
      omega
  rw [e1, e2, rx, ry] at hx
  rcases hx with hx | hx
  · injection hx with q1 hx
    injection hx with q2 hx
    injection hx with q3 q4
    subst q1 q2 q3 q4
    exact key _ _ _ hb.1 hb.2.1
  · injection hx with q1 hx
    injection hx with q2 hx
    injection hx with q3 q4
    subst q1 q2 q3 q4
    exact key _ _ _ hb.2.2.1 hb.2.2.2

/-- The hypotheses are met by the two DUTs above. -/
example (lead : Leading) : ∃ out, correlate demoTel demoFiles (100, 100) none (some [0]) 10 lead = (true, .ok out) ∧ ∃ e ∈ out,
    ∃ i < e.da.x.bins, ∃ j < e.ra.x.bins, e.xReduced i j = 0 := by
  obtain ⟨out, h⟩ := demo_success lead
  obtain ⟨-, -, h3⟩ := correlateRefs_pairs (correlate_ok h)
  obtain ⟨e, he, hx⟩ := List.mem_map.mp ((h3 0 1).mpr (by simp [selectDuts, demoTel, List.range, List.range.loop]))
  exact ⟨out, h, e, he, (C88_reduced demoTel demoFiles (100, 100) none (some [0]) 10 lead true out (by norm_num) (fun t ht => (demo_sorted t ht).1) h e he
    _ _ _ _ (.inl rfl)).2.2⟩

/-- C88: uncorrelated background is removed completely. If the histogram is a product of a function of the row and a function of the column, the
histogram with reduced background is zero. -/
theorem C88_background (tel : List Plane) (files : List Table) (res : ℝ × ℝ) (select refs : Option (List Int)) (cs : Nat) (lead : Leading)
    (o : Bool) (out : List Entry) (hcs : 0 < cs) (hs : ∀ t ∈ files, SortedBy Row.ev t.rows)
    (h : correlate tel files res select refs cs lead = (o, .ok out)) (e : Entry) (he : e ∈ out) (n m : Nat) (hist : Hist2) (reduced : Nat → Nat → Int)
    (hx : (n, m, hist, reduced) = (e.da.x.bins, e.ra.x.bins, e.x, e.xReduced) ∨ (n, m, hist, reduced) = (e.da.y.bins, e.ra.y.bins, e.y, e.yReduced))
    (hlead : IsLeading n m hist (lead n m hist)) (a b : Nat → ℝ) (hab : ∀ i < n, ∀ j < m, (hist i j : ℝ) = a i * b j) :
    ∀ i < n, ∀ j < m, reduced i j = 0 := by
  obtain ⟨P, S, hP, hS, j, hj, e1, e2, hb, rx, ry, -⟩ := entry_spec hcs hs h e he
  have hf := leading_product hab hlead
  have hz : ∀ i < n, ∀ k < m, withoutBackground lead n m hist i k = 0 := by
    intro i hi k hk
    unfold withoutBackground
    rw [hf i hi k hk, toInt_natCast]
    omega
  have key : n ≠ 0 → m ≠ 0 → ∀ i < n, ∀ j < m, Corr.reduced lead n m hist i j = 0 := by
    intro hn hm i hi k hk
    obtain ⟨-, i', hi', k', hk', h2⟩ := minimum_spec n m hn hm (withoutBackground lead n m hist)
    unfold Corr.reduced
    rw [h2, hz i hi k hk, hz i' hi' k' hk']
    rfl
  rw [e1, e2, rx, ry] at hx
  rcases hx with hx | hx
  · injection hx with q1 hx
    injection hx with q2 hx
    injection hx with q3 q4
    subst q1 q2 q3 q4
    exact key hb.1 hb.2.1
  · injection hx with q1 hx
    injection hx with q2 hx
    injection hx with q3 q4
    subst q1 q2 q3 q4
    exact key hb.2.2.1 hb.2.2.2

/-- One pair of hits is a product, and its term of the largest singular value is the histogram itself. -/
example : ∃ out, correlate demoTel demoFiles (100, 100) none (some [0]) 10 (fun _ _ h i j => h i j) = (true, .ok out) ∧ ∃ e ∈ out,
    e.x 1 1 = 1 ∧ ∀ i < e.da.x.bins, ∀ j < e.ra.x.bins, e.xReduced i j = 0 := by
  obtain ⟨out, h⟩ := demo_success (fun _ _ h i j => h i j)
  obtain ⟨e, he, hc, hb1, hb2⟩ := demo_histogram h
  have hprod : ∀ i < e.da.x.bins, ∀ j < e.ra.x.bins, (e.x i j : ℝ) = (if i = 1 then 1 else 0 : ℝ) * (if j = 1 then 1 else 0 : ℝ) := by
    intro i hi j hj
    rw [hc i j]
    by_cases h1 : i = 1 <;> by_cases h2 : j = 1 <;> simp [h1, h2]
  refine ⟨out, h, e, he, by rw [hc]; simp, C88_background demoTel demoFiles (100, 100) none (some [0]) 10 _ true out (by norm_num)
    (fun t ht => (demo_sorted t ht).1) h e he _ _ _ _ (.inl rfl) (product_leading hprod ?_ ?_) _ _ hprod⟩
  · rw [hb1]; simp [Finset.sum_range_succ]
  · rw [hb2]; simp [Finset.sum_range_succ]

/-! ### C89 -/

/-- C89: the output has exactly one entry for every pair of a reference DUT and another selected DUT. -/
theorem C89_pairs (tel : List Plane) (files : List Table) (res : ℝ × ℝ) (select refs : Option (List Int)) (cs : Nat) (lead : Leading)
    (o : Bool) (out : List Entry) (h : correlate tel files res select refs cs lead = (o, .ok out)) :
    (out.map fun e => (e.ref, e.dut)).Nodup ∧ ∀ r d, (∃ e ∈ out, e.ref = r ∧ e.dut = d) ↔
      r ∈ refs.getD (selectDuts tel select) ∧ d ∈ selectDuts tel select ∧ d ≠ r := by
  obtain ⟨h1, -, h3⟩ := correlateRefs_pairs (correlate_ok h)
  refine ⟨h1, fun r d => ?_⟩
  rw [← h3 r d, List.mem_map]
  simp only [Prod.mk.injEq]

/-- C89: negative numbers, numbers above the number of DUTs, an empty selection and a wrong number of files are refused before the output file is
opened. -/
theorem C89_refused_partial (tel : List Plane) (files : List Table) (res : ℝ × ℝ) (select refs : Option (List Int)) (cs : Nat) (lead : Leading)
    (h : selectDuts tel select = [] ∨ (∃ i ∈ selectDuts tel select, i < 0 ∨ (tel.length : Int) < i) ∨ (selectDuts tel select).length ≠ files.length) :
    correlate tel files res select refs cs lead = (false, .error .value) := by
  unfold correlate
  dsimp only
  by_cases hb : badSelection tel.length (selectDuts tel select) = true
  · rw [if_pos hb]
  · rw [if_neg hb, if_pos]
    rcases h with h | ⟨i, hi, h⟩ | h
    · exact absurd (by unfold badSelection; rw [h]; rfl) hb
    · refine absurd ?_ hb
      unfold badSelection
      rw [Bool.or_eq_true, Bool.or_eq_true, List.any_eq_true, List.any_eq_true]
      rcases h with h | h
      · exact .inr ⟨i, hi, by simpa using h⟩
      · exact .inl (.inr ⟨i, hi, by simpa using h⟩)
    · exact h

/-- C89: the output file is opened in all other cases. -/
theorem C89_opened (tel : List Plane) (files : List Table) (res : ℝ × ℝ) (select refs : Option (List Int)) (cs : Nat) (lead : Leading)
    (h0 : selectDuts tel select ≠ []) (h1 : ∀ i ∈ selectDuts tel select, 0 ≤ i ∧ i ≤ tel.length)
    (h2 : (selectDuts tel select).length = files.length) : (correlate tel files res select refs cs lead).1 = true := by
  unfold correlate
  dsimp only
  rw [if_neg, if_neg (by simpa using h2)]
  unfold badSelection
  rw [Bool.or_eq_true, Bool.or_eq_true, List.any_eq_true, List.any_eq_true]
  rintro ((h | ⟨i, hi, h⟩) | ⟨i, hi, h⟩)
  · exact h0 (by simpa using h)
  · have := h1 i hi
    simp only [decide_eq_true_eq] at h
    omega
  · have := h1 i hi
    simp only [decide_eq_true_eq] at h
    omega

/-- C89 is violated: the number of DUTs is accepted as number of a DUT. The run fails after the content of the output file has been lost. -/
theorem C89_number_of_duts (tel : List Plane) (files : List Table) (res : ℝ × ℝ) (select refs : Option (List Int)) (cs : Nat) (lead : Leading)
    (h1 : ∀ i ∈ selectDuts tel select, 0 ≤ i ∧ i ≤ tel.length) (hn : (tel.length : Int) ∈ selectDuts tel select)
    (h2 : (selectDuts tel select).length = files.length) (hr : refs.getD (selectDuts tel select) ≠ []) :
    (correlate tel files res select refs cs lead).1 = true ∧ ∀ out, (correlate tel files res select refs cs lead).2 ≠ .ok out := by
  refine ⟨C89_opened tel files res select refs cs lead (List.ne_nil_of_mem hn) h1 h2, fun out ho => ?_⟩
  have h := correlate_ok (show correlate tel files res select refs cs lead = ((correlate tel files res select refs cs lead).1, .ok out) by rw [← ho])
  obtain ⟨r, l, hl⟩ := List.exists_cons_of_ne_nil hr
  rw [hl] at h
  unfold correlateRefs at h
  split at h
  · cases h
  · next a ha =>
    obtain ⟨-, -, ⟨p, hp⟩, -, hd⟩ := correlateRef_pairs ha
    have hnone : getDut tel (tel.length : Int) = none := by
      unfold getDut
      rw [if_pos (by omega)]
      simp
    by_cases hrn : (tel.length : Int) = r
    · rw [← hrn, hnone] at hp
      cases hp
    · obtain ⟨q, hq⟩ := hd _ (((others_spec _ r).2 _).mpr ⟨hn, hrn⟩)
      rw [hnone] at hq
      cases hq

/-- C89 is violated: a reference DUT that is not selected (as DUT 0, the default) is not refused before the output file is opened. -/
theorem C89_reference_not_selected (tel : List Plane) (files : List Table) (res : ℝ × ℝ) (select refs : Option (List Int)) (cs : Nat) (lead : Leading)
    (h0 : selectDuts tel select ≠ []) (h1 : ∀ i ∈ selectDuts tel select, 0 ≤ i ∧ i < tel.length)
    (h2 : (selectDuts tel select).length = files.length) (r : Int) (hr : r ∈ refs.getD (selectDuts tel select)) (hn : r ∉ selectDuts tel select) :
    (correlate tel files res select refs cs lead).1 = true ∧ ∀ out, (correlate tel files res select refs cs lead).2 ≠ .ok out := by
  refine ⟨C89_opened tel files res select refs cs lead h0 (fun i hi => ⟨(h1 i hi).1, (h1 i hi).2.le⟩) h2, fun out ho => ?_⟩
  have h := correlate_ok (show correlate tel files res select refs cs lead = ((correlate tel files res select refs cs lead).1, .ok out) by rw [← ho])
  obtain ⟨t, ht⟩ := correlateRefs_files h r hr
  exact hn (List.of_mem_zip (lookup_mem ht)).1

/-- One file for two DUTs. -/
example (lead : Leading) : correlate demoTel [⟨true, []⟩] (100, 100) none none 10 lead = (false, .error .value) :=
  C89_refused_partial _ _ _ _ _ _ _ (.inr (.inr (by simp [selectDuts, demoTel])))

/-- DUT 2 of the DUTs 0 and 1. -/
example (lead : Leading) : (correlate demoTel demoFiles (100, 100) (some [0, 2]) (some [0]) 10 lead).1 = true ∧
    ∀ out, (correlate demoTel demoFiles (100, 100) (some [0, 2]) (some [0]) 10 lead).2 ≠ .ok out :=
  C89_number_of_duts _ _ _ _ _ _ _ (by simp [selectDuts, demoTel]) (by simp [selectDuts, demoTel]) (by simp [selectDuts, demoFiles]) (by simp)

/-- Only DUT 1 is selected, the reference is DUT 0. -/
example (lead : Leading) : (correlate demoTel [⟨true, []⟩] (100, 100) (some [1]) (some [0]) 10 lead).1 = true ∧
    ∀ out, (correlate demoTel [⟨true, []⟩] (100, 100) (some [1]) (some [0]) 10 lead).2 ≠ .ok out :=
  C89_reference_not_selected _ _ _ _ _ _ _ (by simp [selectDuts]) (by simp [selectDuts, demoTel]) (by simp [selectDuts]) 0 (by simp) (by simp [selectDuts])

end BTA.Corr
