import Verif.Lemmas.AlignTelescope
import Verif.Props.TrackAngle
/-
C111: `align_telescope`; C112: a telescope with one telescope DUT.
-/
namespace BTA.AlignTel.Props
open BTA.Geo BTA.Dut BTA.Spec BTA.Angle BTA.AlignTel BTA.Angle.Props

theorem ref_moved (svd : List Vec3 → Vec3) (tel tel' : Tel) (sel : List Nat) (ref : Option Nat)
    (h : alignTelescope svd tel sel ref = .ok tel') (ps : List Vec3) (hp : positions tel.duts sel = some ps) :
    ∃ f, tel.duts[referenceDut ref sel ps]? = some f ∧ tel'.duts[referenceDut ref sel ps]? = some { f with x := 0, y := 0 } := by
  obtain ⟨ps', f, I, hp', -, hf, hI, hm, -, -⟩ := alignTelescope_ok svd tel tel' sel ref h
  rw [hp] at hp'
  injection hp' with hp'
  subst hp'
  obtain ⟨hl, hi⟩ := moveLoop_ok _ _ _ _ hm
  refine ⟨f, hf, ?_⟩
  have hlt : referenceDut ref sel ps < tel'.duts.length := by
    rw [hl]
    exact (List.getElem?_eq_some_iff.mp hf).1
  rw [List.getElem?_eq_getElem hlt]
  obtain ⟨p, hp2, e⟩ := hi _ f _ hf (List.getElem?_eq_getElem hlt)
  rw [hI] at hp2
  injection hp2 with hp2
  subst hp2
  rw [e]
  simp [pos]

/-- C111: the x and y position of the given reference DUT is zero afterwards. -/
theorem C111_reference (svd : List Vec3 → Vec3) (tel tel' : Tel) (sel : List Nat) (r : Nat)
    (h : alignTelescope svd tel sel (some r) = .ok tel') : ∃ a, tel'.duts[r]? = some a ∧ a.x = 0 ∧ a.y = 0 := by
  obtain ⟨ps, _, _, hp, -⟩ := alignTelescope_ok svd tel tel' sel _ h
  obtain ⟨f, -, hf⟩ := ref_moved svd tel tel' sel _ h ps hp
  exact ⟨_, hf, rfl, rfl⟩

/-- C111: without a given reference DUT, it is the selected DUT with the smallest z position. -/
theorem C111_reference_default (svd : List Vec3 → Vec3) (tel tel' : Tel) (sel : List Nat)
    (h : alignTelescope svd tel sel none = .ok tel') : ∃ r ∈ sel, ∃ a, tel'.duts[r]? = some a ∧ a.x = 0 ∧ a.y = 0 ∧
      ∀ i ∈ sel, ∀ b, tel.duts[i]? = some b → a.z ≤ b.z := by
  obtain ⟨ps, _, _, hp, hne, -⟩ := alignTelescope_ok svd tel tel' sel _ h
  obtain ⟨f, hf, hf'⟩ := ref_moved svd tel tel' sel _ h ps hp
  obtain ⟨hl, hi⟩ := positions_spec _ _ _ hp
  obtain ⟨k, p, hk, hpk, hmin⟩ := referenceDut_none sel ps hne hl
  refine ⟨_, List.mem_of_getElem? hk, _, hf', rfl, rfl, fun i hi' b hb => ?_⟩
  obtain ⟨f2, hf2, e2⟩ := hi k _ p hk hpk
  rw [hf] at hf2
  injection hf2 with hf2
  subst hf2
  obtain ⟨j, hj, e⟩ := List.mem_iff_getElem.mp hi'
  obtain ⟨b2, hb2, e3⟩ := hi j i (ps[j]'(by omega)) (by rw [List.getElem?_eq_getElem hj, e]) (List.getElem?_eq_getElem _)
  rw [hb] at hb2
  injection hb2 with hb2
  subst hb2
  have := hmin _ (List.getElem_mem (by omega : j < ps.length))
  rw [e2, e3] at this
  exact this

/-- C111: only the x and y positions of the DUTs are changed. -/
theorem C111_kept (svd : List Vec3 → Vec3) (tel tel' : Tel) (sel : List Nat) (ref : Option Nat)
    (h : alignTelescope svd tel sel ref = .ok tel') : tel'.duts.length = tel.duts.length ∧
      ∀ (i : Nat) (a a' : Alignment), tel.duts[i]? = some a → tel'.duts[i]? = some a' →
        a'.z = a.z ∧ a'.alpha = a.alpha ∧ a'.beta = a.beta ∧ a'.gamma = a.gamma := by
  obtain ⟨ps, f, I, -, -, -, -, hm, -, -⟩ := alignTelescope_ok svd tel tel' sel ref h
  obtain ⟨hl, hi⟩ := moveLoop_ok _ _ _ _ hm
  refine ⟨hl, fun i a a' ha ha' => ?_⟩
  obtain ⟨p, -, rfl⟩ := hi i a a' ha ha'
  exact ⟨rfl, rfl, rfl, rfl⟩

/-- The reference DUT is one of the selected DUTs: the default, or given so. -/
def RefSelected (ref : Option Nat) (sel : List Nat) : Prop := ref = none ∨ ∃ r ∈ sel, ref = some r

theorem referenceDut_mem (ref : Option Nat) (sel : List Nat) (ps : List Vec3) (hr : RefSelected ref sel) (hne : ps ≠ [])
    (hl : ps.length = sel.length) : referenceDut ref sel ps ∈ sel := by
  rcases hr with rfl | ⟨r, hr, rfl⟩
  · obtain ⟨k, -, hk, -⟩ := referenceDut_none sel ps hne hl
    exact List.mem_of_getElem? hk
  · exact hr

theorem plane_local (a : Alignment) (I : Vec3) (h : OnPlane (pos a) (dutNormal a.alpha a.beta a.gamma) I) :
    ∃ u v : ℝ, I = (rotationMatrix a.alpha a.beta a.gamma).mulVec ![u, v, 0] + pos a := by
  set R := rotationMatrix a.alpha a.beta a.gamma with hR
  have hz := (BTA.Props.onPlane_dut a I).mp h
  refine ⟨(R.transpose.mulVec (I - pos a)) 0, (R.transpose.mulVec (I - pos a)) 1, ?_⟩
  have : ![(R.transpose.mulVec (I - pos a)) 0, (R.transpose.mulVec (I - pos a)) 1, 0] = R.transpose.mulVec (I - pos a) := by
    ext i
    fin_cases i
    · rfl
    · rfl
    · exact hz.symm
  rw [this, Matrix.mulVec_mulVec, hR, rotationMatrix_orth', Matrix.one_mulVec, sub_add_cancel]

theorem local_plane (a : Alignment) (u v : ℝ) : OnPlane (pos a) (dutNormal a.alpha a.beta a.gamma)
    ((rotationMatrix a.alpha a.beta a.gamma).mulVec ![u, v, 0] + pos a) := by
  refine (BTA.Props.onPlane_dut a _).mpr ?_
  have : ![a.x, a.y, a.z] = pos a := rfl
  rw [this, add_sub_cancel_right, Matrix.mulVec_mulVec, rotationMatrix_orth, Matrix.one_mulVec]
  rfl

theorem onLine_scaled (c d p : Vec3) (k l : ℝ) (hk : k ≠ 0) : OnLine (c + l • d) (k • d) p ↔ OnLine c d p := by
  constructor
  · rintro ⟨t, rfl⟩
    exact ⟨l + t * k, by rw [add_smul, smul_smul, add_assoc]⟩
  · rintro ⟨t, rfl⟩
    refine ⟨(t - l) / k, ?_⟩
    rw [smul_smul, div_mul_cancel₀ _ hk, sub_smul]
    abel

/-- What happens to every DUT if the selected DUTs are on a line. -/
theorem moved (svd : List Vec3 → Vec3) (hsvd : ∀ rows, IsFirstSingular rows (svd rows)) (tel tel' : Tel) (sel : List Nat)
    (ref : Option Nat) (c d : Vec3) (hline : OnOneLine tel.duts sel c d) (hr : RefSelected ref sel)
    (h : alignTelescope svd tel sel ref = .ok tel') (i : Nat) (a a' : Alignment) (ha : tel.duts[i]? = some a)
    (ha' : tel'.duts[i]? = some a') : ∃ I, OnLine c d I ∧ OnPlane (pos a) (dutNormal a.alpha a.beta a.gamma) I ∧
      (∀ q, OnLine c d q → OnPlane (pos a) (dutNormal a.alpha a.beta a.gamma) q → q = I) ∧
      a' = { a with x := a.x - I 0, y := a.y - I 1 } := by
  obtain ⟨ps, f, If, hp, hne, hf, hIf, hm, -, -⟩ := alignTelescope_ok svd tel tel' sel ref h
  obtain ⟨k, l, hk, hfit⟩ := fit_onOneLine svd hsvd _ _ _ c d hp hline
  obtain ⟨hl, hi⟩ := moveLoop_ok _ _ _ _ hm
  rw [hfit] at hIf hi
  have huniq : ∀ (b : Alignment) (I q : Vec3), crossing (c + l • d, k • d) b = .ok I → OnLine c d q →
      OnPlane (pos b) (dutNormal b.alpha b.beta b.gamma) q → q = I := by
    intro b I q hI hq1 hq2
    have := (crossing_ok _ b q).mpr ⟨((crossing_ok _ b I).mp hI).1, (onLine_scaled c d q k l hk).mpr hq1, hq2⟩
    rw [hI] at this
    injection this with this
    exact this.symm
  obtain ⟨hps, hpi⟩ := positions_spec _ _ _ hp
  have hmem := referenceDut_mem ref sel ps hr hne hps
  obtain ⟨q, ⟨f2, hf2, hx, hy, hz⟩, hq⟩ := hline.1 _ hmem
  rw [hf] at hf2
  injection hf2 with hf2
  subst hf2
  have hqf : q = pos f := by
    ext t
    fin_cases t
    · exact hx.symm
    · exact hy.symm
    · exact hz.symm
  have hfI : pos f = If := huniq f If (pos f) hIf (hqf ▸ hq) (onPlane_pos f _)
  obtain ⟨I, hI, e⟩ := hi i a a' ha ha'
  obtain ⟨-, h1, h2⟩ := (crossing_ok _ a I).mp hI
  refine ⟨I, (onLine_scaled c d I k l hk).mp h1, h2, fun q h3 h4 => huniq a I q hI h3 h4, ?_⟩
  rw [e, hfI]
  simp

theorem at_pos (duts : List Alignment) (i : Nat) (p : Vec3) (a : Alignment) (h : At duts i p) (ha : duts[i]? = some a) : p = pos a := by
  obtain ⟨b, hb, hx, hy, hz⟩ := h
  rw [ha] at hb
  injection hb with hb
  subst hb
  ext t
  fin_cases t
  · exact hx.symm
  · exact hy.symm
  · exact hz.symm

/-- C111: if the selected DUTs are on a straight line, all of them are on the z axis afterwards. -/
theorem C111_line (svd : List Vec3 → Vec3) (hsvd : ∀ rows, IsFirstSingular rows (svd rows)) (tel tel' : Tel) (sel : List Nat)
    (ref : Option Nat) (c d : Vec3) (hline : OnOneLine tel.duts sel c d) (hr : RefSelected ref sel)
    (h : alignTelescope svd tel sel ref = .ok tel') (i : Nat) (hi : i ∈ sel) : ∃ a, tel'.duts[i]? = some a ∧ a.x = 0 ∧ a.y = 0 := by
  obtain ⟨p, hat, hon⟩ := hline.1 i hi
  obtain ⟨a, ha, -⟩ := id hat
  have hlt : i < tel'.duts.length := by
    rw [(C111_kept svd tel tel' sel ref h).1]
    exact (List.getElem?_eq_some_iff.mp ha).1
  have hpa := at_pos _ _ _ _ hat ha
  obtain ⟨I, -, -, hu, e⟩ := moved svd hsvd tel tel' sel ref c d hline hr h i a _ ha (List.getElem?_eq_getElem hlt)
  have := hu p hon (hpa ▸ onPlane_pos a _)
  refine ⟨_, List.getElem?_eq_getElem hlt, ?_, ?_⟩
  · rw [e, ← this, hpa]; simp [pos]
  · rw [e, ← this, hpa]; simp [pos]

/-- C111: every other DUT keeps its offset from the point where the line goes through its sensor (the point (u, v) of the sensor). -/
theorem C111_offset (svd : List Vec3 → Vec3) (hsvd : ∀ rows, IsFirstSingular rows (svd rows)) (tel tel' : Tel) (sel : List Nat)
    (ref : Option Nat) (c d : Vec3) (hline : OnOneLine tel.duts sel c d) (hr : RefSelected ref sel)
    (h : alignTelescope svd tel sel ref = .ok tel') (i : Nat) (a a' : Alignment) (ha : tel.duts[i]? = some a)
    (ha' : tel'.duts[i]? = some a') : ∃ u v : ℝ,
      OnLine c d ((rotationMatrix a.alpha a.beta a.gamma).mulVec ![u, v, 0] + ![a.x, a.y, a.z]) ∧
      ((rotationMatrix a.alpha a.beta a.gamma).mulVec ![u, v, 0] + ![a'.x, a'.y, a'.z]) 0 = 0 ∧
      ((rotationMatrix a.alpha a.beta a.gamma).mulVec ![u, v, 0] + ![a'.x, a'.y, a'.z]) 1 = 0 := by
  obtain ⟨I, h1, h2, -, e⟩ := moved svd hsvd tel tel' sel ref c d hline hr h i a a' ha ha'
  obtain ⟨u, v, hI⟩ := plane_local a I h2
  refine ⟨u, v, hI ▸ h1, ?_, ?_⟩
  · have : ((rotationMatrix a.alpha a.beta a.gamma).mulVec ![u, v, 0]) 0 = I 0 - a.x := by rw [hI]; simp [pos]
    rw [e]
    show ((rotationMatrix a.alpha a.beta a.gamma).mulVec ![u, v, 0]) 0 + (a.x - I 0) = 0
    rw [this]; ring
  · have : ((rotationMatrix a.alpha a.beta a.gamma).mulVec ![u, v, 0]) 1 = I 1 - a.y := by rw [hI]; simp [pos]
    rw [e]
    show ((rotationMatrix a.alpha a.beta a.gamma).mulVec ![u, v, 0]) 1 + (a.y - I 1) = 0
    rw [this]; ring

/-- C111: a particle moving parallel to the line hits two sensors that are perpendicular to the z axis. After the alignment the two hits have the
same x and y coordinate: the particle moves along the z axis. -/
theorem C111_tracks (svd : List Vec3 → Vec3) (hsvd : ∀ rows, IsFirstSingular rows (svd rows)) (tel tel' : Tel) (sel : List Nat)
    (ref : Option Nat) (c d : Vec3) (hline : OnOneLine tel.duts sel c d) (hd : d 2 ≠ 0) (hr : RefSelected ref sel)
    (h : alignTelescope svd tel sel ref = .ok tel') (i j : Nat) (a a' b b' : Alignment)
    (ha : tel.duts[i]? = some a) (ha' : tel'.duts[i]? = some a') (hb : tel.duts[j]? = some b) (hb' : tel'.duts[j]? = some b')
    (hpa : Perpendicular a) (hpb : Perpendicular b) (o : Vec3) (u v s t : ℝ)
    (hit1 : OnLine o d ((rotationMatrix a.alpha a.beta a.gamma).mulVec ![u, v, 0] + ![a.x, a.y, a.z]))
    (hit2 : OnLine o d ((rotationMatrix b.alpha b.beta b.gamma).mulVec ![s, t, 0] + ![b.x, b.y, b.z])) :
    ((rotationMatrix a'.alpha a'.beta a'.gamma).mulVec ![u, v, 0] + ![a'.x, a'.y, a'.z]) 0 =
      ((rotationMatrix b'.alpha b'.beta b'.gamma).mulVec ![s, t, 0] + ![b'.x, b'.y, b'.z]) 0 ∧
    ((rotationMatrix a'.alpha a'.beta a'.gamma).mulVec ![u, v, 0] + ![a'.x, a'.y, a'.z]) 1 =
      ((rotationMatrix b'.alpha b'.beta b'.gamma).mulVec ![s, t, 0] + ![b'.x, b'.y, b'.z]) 1 := by
  have key : ∀ (i : Nat) (a a' : Alignment) (u v : ℝ), tel.duts[i]? = some a → tel'.duts[i]? = some a' → Perpendicular a →
      OnLine o d ((rotationMatrix a.alpha a.beta a.gamma).mulVec ![u, v, 0] + ![a.x, a.y, a.z]) →
      ∃ m : ℝ, m * d 2 = c 2 - o 2 ∧
        ((rotationMatrix a'.alpha a'.beta a'.gamma).mulVec ![u, v, 0] + ![a'.x, a'.y, a'.z]) 0 = o 0 - c 0 + m * d 0 ∧
        ((rotationMatrix a'.alpha a'.beta a'.gamma).mulVec ![u, v, 0] + ![a'.x, a'.y, a'.z]) 1 = o 1 - c 1 + m * d 1 := by
    intro i a a' u v ha ha' hp hit
    obtain ⟨I, ⟨l, hI⟩, h2, -, e⟩ := moved svd hsvd tel tel' sel ref c d hline hr h i a a' ha ha'
    obtain ⟨u', v', hI'⟩ := plane_local a I h2
    obtain ⟨n, hn⟩ := hit
    have z1 := hp u v
    have z2 := hp u' v'
    have hIz : I 2 = a.z := by
      rw [hI']
      show ((rotationMatrix a.alpha a.beta a.gamma).mulVec ![u', v', 0]) 2 + a.z = a.z
      rw [z2]; ring
    have n0 := congrFun hn 0
    have n1 := congrFun hn 1
    have n2 := congrFun hn 2
    have i0 := congrFun hI 0
    have i1 := congrFun hI 1
    have i2 := congrFun hI 2
    replace n0 : ((rotationMatrix a.alpha a.beta a.gamma).mulVec ![u, v, 0]) 0 + a.x = o 0 + n * d 0 := n0
    replace n1 : ((rotationMatrix a.alpha a.beta a.gamma).mulVec ![u, v, 0]) 1 + a.y = o 1 + n * d 1 := n1
    replace n2 : ((rotationMatrix a.alpha a.beta a.gamma).mulVec ![u, v, 0]) 2 + a.z = o 2 + n * d 2 := n2
    replace i0 : I 0 = c 0 + l * d 0 := i0
    replace i1 : I 1 = c 1 + l * d 1 := i1
    replace i2 : I 2 = c 2 + l * d 2 := i2
    refine ⟨n - l, ?_, ?_, ?_⟩
    · rw [z1] at n2
      rw [hIz] at i2
      linarith
    · rw [e]
      show ((rotationMatrix a.alpha a.beta a.gamma).mulVec ![u, v, 0]) 0 + (a.x - I 0) = _
      linarith
    · rw [e]
      show ((rotationMatrix a.alpha a.beta a.gamma).mulVec ![u, v, 0]) 1 + (a.y - I 1) = _
      linarith
  obtain ⟨m, hm, x1, y1⟩ := key i a a' u v ha ha' hpa hit1
  obtain ⟨m', hm', x2, y2⟩ := key j b b' s t hb hb' hpb hit2
  have : m = m' := mul_right_cancel₀ hd (hm.trans hm'.symm)
  subst this
  exact ⟨x1.trans x2.symm, y1.trans y2.symm⟩

theorem orient_nonneg (v : Vec3) : 0 ≤ (orient v) 2 := by
  unfold orient
  split
  · rename_i h
    simp only [Pi.neg_apply]
    linarith
  · rename_i h
    exact not_lt.mp h

/-- C111: the angles of the line are subtracted from the rotation of the telescope. -/
theorem C111_angles (svd : List Vec3 → Vec3) (hsvd : ∀ rows, IsFirstSingular rows (svd rows)) (tel tel' : Tel) (sel : List Nat)
    (ref : Option Nat) (c d : Vec3) (hline : OnOneLine tel.duts sel c d) (hd : 0 < d 2)
    (h : alignTelescope svd tel sel ref = .ok tel') : ∃ a b : ℝ, (trackAngles d).alpha = some a ∧ (trackAngles d).beta = some b ∧
      tel'.alpha = tel.alpha - a ∧ tel'.beta = tel.beta - b := by
  obtain ⟨ps, f, If, hp, -, -, -, -, ha, hb⟩ := alignTelescope_ok svd tel tel' sel ref h
  obtain ⟨k, l, hk, hfit⟩ := fit_onOneLine svd hsvd _ _ _ c d hp hline
  have hn : 0 ≤ (lineFit svd ps).2 2 := orient_nonneg _
  rw [hfit] at ha hb hn
  have hn : 0 ≤ k * d 2 := hn
  have hk : 0 < k := lt_of_le_of_ne (by
    by_contra hc
    nlinarith) (Ne.symm hk)
  rw [C113_scale d k hk] at ha hb
  exact ⟨_, _, ha, hb, by ring, by ring⟩

theorem contains_iff (a : Alignment) (d : Vec3) : dot (dutNormal a.alpha a.beta a.gamma) d = 0 ↔
    ∃ u v : ℝ, d = (rotationMatrix a.alpha a.beta a.gamma).mulVec ![u, v, 0] := by
  have h1 := BTA.Props.C33_dut_raises_iff a [(0, d)]
  unfold intersectDut at h1
  rw [BTA.Props.C33_raises_iff] at h1
  simpa using h1

theorem dot_smul_right (n d : Vec3) (k : ℝ) : dot n (k • d) = k * dot n d := by simp [dot]; ring

/-- C111: if the selected DUTs are on a straight line, the function succeeds unless the line is parallel to one of the sensors. -/
theorem C111_succeeds_iff (svd : List Vec3 → Vec3) (hsvd : ∀ rows, IsFirstSingular rows (svd rows)) (tel : Tel) (sel : List Nat)
    (ref : Option Nat) (c d : Vec3) (hline : OnOneLine tel.duts sel c d) (hd : d 2 ≠ 0) (hr : RefSelected ref sel) :
    (∃ tel', alignTelescope svd tel sel ref = .ok tel') ↔
      ∀ a ∈ tel.duts, ¬ ∃ u v : ℝ, d = (rotationMatrix a.alpha a.beta a.gamma).mulVec ![u, v, 0] := by
  have hex : ∀ i ∈ sel, ∃ a, tel.duts[i]? = some a := fun i hi => by
    obtain ⟨p, ⟨a, ha, -⟩, -⟩ := hline.1 i hi
    exact ⟨a, ha⟩
  obtain ⟨ps, hp⟩ := positions_some tel.duts sel hex
  obtain ⟨hpl, -⟩ := positions_spec _ _ _ hp
  obtain ⟨i, hi, -⟩ := hline.2
  have hne : ps ≠ [] := fun h => by
    rw [h] at hpl
    have := List.length_eq_zero_iff.mp hpl.symm
    rw [this] at hi
    cases hi
  obtain ⟨k, l, hk, hfit⟩ := fit_onOneLine svd hsvd _ _ _ c d hp hline
  have hmem := referenceDut_mem ref sel ps hr hne hpl
  obtain ⟨f, hf⟩ := hex _ hmem
  have hz : (k • d) 2 ≠ 0 := mul_ne_zero hk hd
  constructor
  · rintro ⟨tel', h⟩ a ha hc
    obtain ⟨ps', f', I, hp', -, -, -, hm, -⟩ := alignTelescope_ok svd tel tel' sel ref h
    rw [hp] at hp'
    injection hp' with hp'
    subst hp'
    have := (moveLoop_error (lineFit svd ps) (I - pos f') .parallel tel.duts).mpr ⟨rfl, a, ha, by
      rw [hfit]
      show dot _ (k • d) = 0
      rw [dot_smul_right, (contains_iff a d).mpr hc, mul_zero]⟩
    rw [hm] at this
    cases this
  · intro hall
    have hnp : ∀ a ∈ tel.duts, dot (dutNormal a.alpha a.beta a.gamma) (lineFit svd ps).2 ≠ 0 := by
      intro a ha h0
      rw [hfit] at h0
      have h0 : dot _ (k • d) = 0 := h0
      rw [dot_smul_right] at h0
      exact hall a ha ((contains_iff a d).mp ((mul_eq_zero.mp h0).resolve_left hk))
    unfold alignTelescope
    rw [hp]
    obtain ⟨p, ps', rfl⟩ := List.exists_cons_of_ne_nil hne
    dsimp only
    unfold moveTel
    rw [hf]
    dsimp only
    cases hI : crossing (lineFit svd (p :: ps')) f with
    | error e => exact absurd ((crossing_error _ f e).mp hI).2 (hnp f (List.mem_of_getElem? hf))
    | ok I =>
      dsimp only
      cases hm : moveLoop (lineFit svd (p :: ps')) (I - pos f) tel.duts with
      | error e =>
        obtain ⟨-, a, ha, h0⟩ := (moveLoop_error _ _ e _).mp hm
        exact absurd h0 (hnp a ha)
      | ok duts =>
        dsimp only
        unfold rotateTel
        rw [hfit]
        dsimp only
        rw [trackAngles_alpha _ (.inr hz), trackAngles_beta _ (.inr hz)]
        exact ⟨_, rfl⟩

/-- C111: the errors: an unknown DUT is selected, no DUT is selected. -/
theorem C111_raises (svd : List Vec3 → Vec3) (tel : Tel) (sel : List Nat) (ref : Option Nat) :
    ((∃ i ∈ sel, tel.duts.length ≤ i) → alignTelescope svd tel sel ref = .error .noDut) ∧
    alignTelescope svd tel [] ref = .error .empty := by
  refine ⟨?_, rfl⟩
  rintro ⟨i, hi, hl⟩
  unfold alignTelescope
  rw [(positions_none _ _).mpr ⟨i, hi, List.getElem?_eq_none hl⟩]

/-- C111: a second run changes nothing. -/
theorem C111_again (svd : List Vec3 → Vec3) (hsvd : ∀ rows, IsFirstSingular rows (svd rows)) (tel tel' : Tel) (sel : List Nat)
    (ref : Option Nat) (c d : Vec3) (hline : OnOneLine tel.duts sel c d) (hd : d 2 ≠ 0) (hr : RefSelected ref sel)
    (hz : ∀ a ∈ tel.duts, ¬ ∃ u v : ℝ, ![0, 0, 1] = (rotationMatrix a.alpha a.beta a.gamma).mulVec ![u, v, 0])
    (h : alignTelescope svd tel sel ref = .ok tel') : alignTelescope svd tel' sel ref = .ok tel' := by
  obtain ⟨hlen, hkept⟩ := C111_kept svd tel tel' sel ref h
  have hsel := C111_line svd hsvd tel tel' sel ref c d hline hr h
  have hat : ∀ i ∈ sel, ∀ p, At tel.duts i p → At tel'.duts i ![0, 0, p 2] := by
    intro i hi p hp
    obtain ⟨a, ha, -, -, hz⟩ := hp
    obtain ⟨a', ha', hx, hy⟩ := hsel i hi
    exact ⟨a', ha', hx, hy, by rw [(hkept i a a' ha ha').1, hz]; rfl⟩
  have hline' : OnOneLine tel'.duts sel 0 ![0, 0, 1] := by
    refine ⟨fun i hi => ?_, ?_⟩
    · obtain ⟨p, hp, -⟩ := hline.1 i hi
      refine ⟨_, hat i hi p hp, p 2, ?_⟩
      ext t
      fin_cases t <;> simp
    · obtain ⟨i, hi, j, hj, p, q, hp, hq, hpq⟩ := hline.2
      refine ⟨i, hi, j, hj, _, _, hat i hi p hp, hat j hj q hq, fun he => hpq ?_⟩
      have hez : p 2 = q 2 := by
        have := congrFun he 2
        simpa using this
      obtain ⟨p', hp', t, ht⟩ := hline.1 i hi
      obtain ⟨q', hq', s, hs⟩ := hline.1 j hj
      obtain ⟨a, ha, -⟩ := id hp
      obtain ⟨b, hb, -⟩ := id hq
      have e1 : p = p' := (at_pos _ _ _ _ hp ha).trans (at_pos _ _ _ _ hp' ha).symm
      have e2 : q = q' := (at_pos _ _ _ _ hq hb).trans (at_pos _ _ _ _ hq' hb).symm
      rw [e1, e2, ht, hs] at hez ⊢
      have hez : c 2 + t * d 2 = c 2 + s * d 2 := hez
      have : t = s := mul_right_cancel₀ hd (by linarith)
      rw [this]
  have hz' : ∀ a ∈ tel'.duts, ¬ ∃ u v : ℝ, ![0, 0, 1] = (rotationMatrix a.alpha a.beta a.gamma).mulVec ![u, v, 0] := by
    intro a' ha'
    obtain ⟨i, hi, e⟩ := List.mem_iff_getElem.mp ha'
    have hi2 : i < tel.duts.length := by omega
    obtain ⟨-, h1, h2, h3⟩ := hkept i _ _ (List.getElem?_eq_getElem hi2) (List.getElem?_eq_getElem hi)
    rw [← e, h1, h2, h3]
    exact hz _ (List.getElem_mem hi2)
  obtain ⟨tel'', h2⟩ := (C111_succeeds_iff svd hsvd tel' sel ref 0 ![0, 0, 1] hline' (by simp) hr).mpr hz'
  rw [h2]
  congr 1
  obtain ⟨a, b, ha, hb, ea, eb⟩ := C111_angles svd hsvd tel' tel'' sel ref 0 ![0, 0, 1] hline' (show (0 : ℝ) < 1 by norm_num) h2
  rw [trackAngles_alpha _ (.inr (by simp))] at ha
  rw [trackAngles_beta _ (.inr (by simp))] at hb
  have ha0 : a = 0 := by
    injection ha with ha
    rw [← ha]
    show arctan2 0 |1| = 0
    rw [abs_one]
    exact arctan2_zero 1 one_pos
  have hb0 : b = 0 := by
    injection hb with hb
    rw [← hb]
    show arctan2 (-0) |1| = 0
    rw [abs_one, neg_zero]
    exact arctan2_zero 1 one_pos
  obtain ⟨hlen2, -⟩ := C111_kept svd tel' tel'' sel ref h2
  have hduts : tel''.duts = tel'.duts := by
    refine List.ext_getElem hlen2 fun i h3 h4 => ?_
    obtain ⟨I, ⟨t, hI⟩, -, -, e⟩ := moved svd hsvd tel' tel'' sel ref 0 ![0, 0, 1] hline' hr h2 i _ _ (List.getElem?_eq_getElem h4)
      (List.getElem?_eq_getElem h3)
    rw [e]
    have e0 : I 0 = 0 := by rw [hI]; simp
    have e1 : I 1 = 0 := by rw [hI]; simp
    rw [e0, e1]
    simp
  cases tel''
  cases tel'
  simp only at ea eb hduts
  rw [ha0] at ea
  rw [hb0] at eb
  rw [ea, eb, hduts]
  simp

/-- A telescope of two DUTs on an inclined line: the hypotheses can be met. -/
example : ∃ tel : Tel, OnOneLine tel.duts [0, 1] 0 ![1, 2, 10] ∧ RefSelected none [0, 1] ∧ ∀ a ∈ tel.duts, Perpendicular a := by
  refine ⟨⟨0, 0, [⟨0, 0, 0, 0, 0, 0⟩, ⟨1, 2, 10, 0, 0, 1⟩]⟩, ⟨?_, ?_⟩, .inl rfl, ?_⟩
  · intro i hi
    rcases List.mem_cons.mp hi with rfl | hi
    · exact ⟨0, ⟨_, rfl, rfl, rfl, rfl⟩, 0, by simp⟩
    · rw [List.mem_singleton.mp hi]
      exact ⟨![1, 2, 10], ⟨_, rfl, rfl, rfl, rfl⟩, 1, by simp⟩
  · exact ⟨0, by simp, 1, by simp, 0, ![1, 2, 10], ⟨_, rfl, rfl, rfl, rfl⟩, ⟨_, rfl, rfl, rfl, rfl⟩, fun h => by simpa using congrFun h 0⟩
  · intro a ha u v
    rcases List.mem_cons.mp ha with rfl | ha
    · simp [rotationMatrix_eq, Matrix.mulVec, dotProduct, Fin.sum_univ_succ]
    · rw [List.mem_singleton.mp ha]
      simp [rotationMatrix_eq, Matrix.mulVec, dotProduct, Fin.sum_univ_succ]

/-- C112, true part: with a single selected DUT, this DUT is at x = y = 0 afterwards. Missing: the relative positions of the DUTs and the rotation
of the telescope are kept; this is false (`C112_arbitrary`, `C112_raises`). -/
theorem C112_partial (svd : List Vec3 → Vec3) (tel tel' : Tel) (i : Nat) (h : alignTelescope svd tel [i] none = .ok tel') :
    ∃ a, tel'.duts[i]? = some a ∧ a.x = 0 ∧ a.y = 0 := by
  obtain ⟨r, hr, a, ha, hx, hy, -⟩ := C111_reference_default svd tel tel' [i] h
  rw [List.mem_singleton.mp hr] at ha
  exact ⟨a, ha, hx, hy⟩

theorem single_fit (svd : List Vec3 → Vec3) (a : Alignment) : lineFit svd [pos a] = (pos a, orient (svd [0])) := by
  unfold lineFit centre
  simp

theorem orient_unit (v : Vec3) (h1 : dot v v = 1) (h2 : 0 ≤ v 2) : orient v = v := by
  unfold orient
  dsimp only
  rw [h1, Real.sqrt_one, inv_one, one_smul, if_neg (not_lt.mpr h2)]

/-- C112: with a single selected DUT every direction is a singular vector; for every direction there is a correct decomposition with which the
angles of this direction are subtracted from the rotation of the telescope. -/
theorem C112_arbitrary (v : Vec3) (h1 : dot v v = 1) (h2 : 0 < v 2) : ∃ svd : List Vec3 → Vec3, (∀ rows, IsFirstSingular rows (svd rows)) ∧
    ∀ (tel : Tel) (i : Nat) (tel' : Tel), alignTelescope svd tel [i] none = .ok tel' →
      (trackAngles v).alpha = some (tel.alpha - tel'.alpha) ∧ (trackAngles v).beta = some (tel.beta - tel'.beta) := by
  classical
  obtain ⟨svd, hsvd⟩ := exists_svd
  refine ⟨fun rows => if rows = [0] then v else svd rows, fun rows => ?_, fun tel i tel' h => ?_⟩
  · dsimp only
    split
    · rename_i h
      subst h
      refine ⟨h1, fun w _ => ?_⟩
      have hz : ∀ w : Vec3, dot 0 w = 0 := fun w => by simp [dot]
      simp only [List.map_cons, List.map_nil, List.sum_cons, List.sum_nil, hz]
      exact le_rfl
    · exact hsvd rows
  · obtain ⟨ps, f, I, hp, -, -, -, -, ha, hb⟩ := alignTelescope_ok _ tel tel' [i] none h
    obtain ⟨hl, hi⟩ := positions_spec _ _ _ hp
    obtain ⟨p, rfl⟩ := List.length_eq_one_iff.mp hl
    obtain ⟨a, -, rfl⟩ := hi 0 i p rfl rfl
    rw [single_fit] at ha hb
    dsimp only at ha hb
    rw [if_pos rfl, orient_unit v h1 h2.le] at ha hb
    exact ⟨ha, hb⟩

/-- C112: if the decomposition of the zero matrix gives the first unit vector, the function raises an exception for a sensor parallel to the
x axis, for example every sensor that is not rotated. -/
theorem C112_raises (svd : List Vec3 → Vec3) (h1 : svd [0] = ![1, 0, 0]) (tel : Tel) (i : Nat) (a : Alignment)
    (ha : tel.duts[i]? = some a) (h0 : a.beta = 0) (h0' : a.gamma = 0) : alignTelescope svd tel [i] none = .error .parallel := by
  have hp : positions tel.duts [i] = some [pos a] := by simp only [positions, ha]
  unfold alignTelescope
  rw [hp]
  dsimp only
  have hr : referenceDut none [i] [pos a] = i := by
    obtain ⟨k, p, hk, -⟩ := referenceDut_none [i] [pos a] (by simp) rfl
    have := List.mem_of_getElem? hk
    exact List.mem_singleton.mp this
  unfold moveTel
  rw [hr, ha, single_fit, h1]
  dsimp only
  rw [orient_unit _ (by simp [dot]) (by simp)]
  have : crossing (pos a, ![1, 0, 0]) a = .error .parallel := by
    refine (crossing_error _ _ _).mpr ⟨rfl, (contains_iff a _).mpr ⟨1, 0, ?_⟩⟩
    rw [h0, h0']
    ext t
    fin_cases t <;> simp [rotationMatrix_eq, Matrix.mulVec, dotProduct, Fin.sum_univ_succ]
  rw [this]

example : ∃ (svd : List Vec3 → Vec3) (tel : Tel) (a : Alignment), (∀ rows, IsFirstSingular rows (svd rows)) ∧ svd [0] = ![1, 0, 0] ∧
    tel.duts[0]? = some a ∧ a.beta = 0 ∧ a.gamma = 0 := by
  classical
  obtain ⟨svd, hsvd⟩ := exists_svd
  refine ⟨fun rows => if rows = [0] then ![1, 0, 0] else svd rows, ⟨0, 0, [⟨10, 20, 0, 0, 0, 0⟩]⟩, _, fun rows => ?_, if_pos rfl, rfl, rfl, rfl⟩
  dsimp only
  split
  · rename_i h
    subst h
    refine ⟨by simp [dot], fun w _ => ?_⟩
    have hz : ∀ w : Vec3, dot 0 w = 0 := fun w => by simp [dot]
    simp only [List.map_cons, List.map_nil, List.sum_cons, List.sum_nil, hz]
    exact le_rfl
  · exact hsvd rows

end BTA.AlignTel.Props
