import Verif.Lemmas.LineFit
/-
Properties of the straight line fit: C144-C147.
-/
namespace BTA.Line.Props
open BTA.Geo BTA.Dut BTA.AlignTel BTA.Spec BTA.Line

theorem orient_unit_smul (v : Vec3) (h : dot v v = 1) : orient v = v ∨ orient v = -v := by
  unfold orient
  rw [h, Real.sqrt_one, inv_one, one_smul]
  dsimp only
  split_ifs
  · exact .inr rfl
  · exact .inl rfl

theorem ne_zero_of_unit (v : Vec3) (h : dot v v = 1) : v ≠ 0 := by
  rintro rfl
  simp [dot] at h

/-- The stored track at a DUT is the fitted line. -/
theorem stored_line (g : Config) (hn : g.slices ≠ 0) (hs : Svd g) (cands : List Cand) (ts : List Track) (h : fitChunk g cands = .ok ts)
    (i : Nat) (c : Cand) (t : Track) (hc : cands[i]? = some c) (ht : ts[i]? = some t) (d : Nat) (a : Alignment) (e : Est)
    (ha : g.duts[d]? = some a) (he : t.est d = some e) :
    ∃ v, g.svd ((trackHits g c).map fun p => p - centre (trackHits g c)) = some v ∧ dot v v = 1 ∧
      ∃ p, crossing (centre (trackHits g c), orient v) a = .ok p ∧ globalPoint a e = p ∧ e.pos = toLocal a p ∧
        e.slope = Angle.storedSlope a (orient v) := by
  obtain ⟨-, hi⟩ := fitChunk_ok g hn cands ts h
  obtain ⟨h1, h2, -, -, -, -⟩ := hi i c t hc ht
  cases hf : fitLine g.svd (trackHits g c) with
  | none =>
    rw [h1 d a ha hf] at he
    cases he
  | some l =>
    obtain ⟨p, hp, e1⟩ := h2 d a l ha hf
    obtain ⟨v, hv, rfl⟩ := fitLine_some _ _ _ hf
    rw [e1] at he
    injection he with he
    subst he
    exact ⟨v, hv, (hs _ _ hv).1, p, hp, globalPoint_toLocal a p _, rfl, rfl⟩

theorem dist_stored (p q m v w : Vec3) (a : Alignment) (hv : dot v v = 1) (hp : OnLine m (orient v) p) (s : Vec3)
    (hs : Angle.storedSlope a (orient v) = some s) (hw : w = globalDirection a s) : lineDist2 q p w = lineDist2 q m v := by
  obtain ⟨k, hk, e⟩ := globalDirection_stored a _ s hs
  obtain ⟨t, rfl⟩ := hp
  rw [hw, e]
  rcases orient_unit_smul v hv with h | h
  · rw [h, lineDist2_same _ _ _ _ _ hk]
  · rw [h, smul_neg, smul_neg, ← neg_smul, ← neg_smul, lineDist2_same _ _ _ _ _ (neg_ne_zero.mpr hk)]

/-- C144: no straight line is closer to the hits of the fit DUTs than the stored track (sum of the squared distances). -/
theorem C144_closest (g : Config) (hn : g.slices ≠ 0) (hs : Svd g) (cands : List Cand) (ts : List Track) (h : fitChunk g cands = .ok ts)
    (i : Nat) (c : Cand) (t : Track) (hc : cands[i]? = some c) (ht : ts[i]? = some t) (d : Nat) (a : Alignment) (e : Est) (s : Vec3)
    (ha : g.duts[d]? = some a) (he : t.est d = some e) (hsl : e.slope = some s) (q w : Vec3) (hw : w ≠ 0) :
    sumHits g c (fun _ b x => lineDist2 (placed b x) (globalPoint a e) (globalDirection a s)) ≤
      sumHits g c (fun _ b x => lineDist2 (placed b x) q w) := by
  obtain ⟨v, hv, hv1, p, hp, hg, -, hsl'⟩ := stored_line g hn hs cands ts h i c t hc ht d a e ha he
  obtain ⟨-, hon, -⟩ := (crossing_ok _ _ _).mp hp
  rw [hsl'] at hsl
  rw [sumHits_eq g c fun x => lineDist2 x (globalPoint a e) (globalDirection a s), sumHits_eq g c fun x => lineDist2 x q w]
  by_cases hne : trackHits g c = []
  · rw [hne]; simp
  · have : ((trackHits g c).map fun x => lineDist2 x (globalPoint a e) (globalDirection a s)) =
        (trackHits g c).map fun x => lineDist2 x (centre (trackHits g c)) v :=
      List.map_congr_left fun x _ => by
        rw [hg]
        exact dist_stored p x _ v _ a hv1 hon s hsl rfl
    rw [this]
    exact best_line _ hne v q w (hs _ _ hv) hw

/-- The fitted line, if the hits are on a line. -/
theorem fit_on (g : Config) (hs : Svd g) (c : Cand) (p v : Vec3) (hl : HitsOn g c p v) (u : Vec3)
    (hu : g.svd ((trackHits g c).map fun x => x - centre (trackHits g c)) = some u) :
    ∃ k l : ℝ, k ≠ 0 ∧ centre (trackHits g c) = p + l • v ∧ orient u = k • v := by
  classical
  obtain ⟨svd0, h0⟩ := exists_svd
  obtain ⟨hall, d, hd, d', hd', a, x, a', x', hx, hx', hne⟩ := hl
  have hts : ∃ ts : List ℝ, trackHits g c = ts.map fun t => p + t • v := by
    have : ∀ y ∈ trackHits g c, ∃ t : ℝ, y = p + t • v := by
      intro y hy
      obtain ⟨b, hb, a1, x1, h1, rfl⟩ := (mem_trackHits g c y).mp hy
      exact hall b hb a1 x1 h1
    generalize trackHits g c = l at this ⊢
    induction l with
    | nil => exact ⟨[], rfl⟩
    | cons y l ih =>
      obtain ⟨ts, rfl⟩ := ih fun z hz => this z (List.mem_cons_of_mem _ hz)
      obtain ⟨t, rfl⟩ := this y List.mem_cons_self
      exact ⟨t :: ts, rfl⟩
  obtain ⟨ts, hts⟩ := hts
  have hm := (mem_trackHits g c _).mpr ⟨d, hd, a, x, hx, rfl⟩
  have hm' := (mem_trackHits g c _).mpr ⟨d', hd', a', x', hx', rfl⟩
  rw [hts] at hm hm'
  obtain ⟨t1, ht1, e1⟩ := List.mem_map.mp hm
  obtain ⟨t2, ht2, e2⟩ := List.mem_map.mp hm'
  have ht : t1 ≠ t2 := by
    rintro rfl
    exact hne (e1.symm.trans e2)
  have hv : v ≠ 0 := by
    rintro rfl
    apply hne
    rw [← e1, ← e2]
    simp
  obtain ⟨k, l, hk, e⟩ := lineFit_line (fun rows => (g.svd rows).getD (svd0 rows)) (fun rows => by
    cases hr : g.svd rows with
    | none => simpa using h0 rows
    | some w => simpa using hs rows w hr) ts p v t1 t2 ht1 ht2 ht hv
  rw [← hts] at e
  unfold lineFit at e
  dsimp only at e
  rw [hu] at e
  injection e with e3 e4
  exact ⟨k, l, hk, e3, e4⟩

/-- C144: if the hits of the fit DUTs are on a straight line, the stored track of every DUT is this line, and it passes through every other
hit on this line. -/
theorem C144_line (g : Config) (hn : g.slices ≠ 0) (hs : Svd g) (cands : List Cand) (ts : List Track) (h : fitChunk g cands = .ok ts)
    (i : Nat) (c : Cand) (t : Track) (hc : cands[i]? = some c) (ht : ts[i]? = some t) (p v : Vec3) (hl : HitsOn g c p v)
    (d : Nat) (a : Alignment) (e : Est) (ha : g.duts[d]? = some a) (he : t.est d = some e) :
    OnLine p v (globalPoint a e) ∧ (∀ s, e.slope = some s → ∃ k : ℝ, k ≠ 0 ∧ globalDirection a s = k • v) ∧
      ∀ x : Hit, x.z = 0 → OnLine p v (placed a x) → e.pos 0 = x.x ∧ e.pos 1 = x.y := by
  obtain ⟨u, hu, hu1, q, hq, hg, hpos, hsl⟩ := stored_line g hn hs cands ts h i c t hc ht d a e ha he
  obtain ⟨k, l, hk, ec, eo⟩ := fit_on g hs c p v hl u hu
  obtain ⟨h0, ⟨r, hr⟩, hpl⟩ := (crossing_ok _ _ _).mp hq
  dsimp only at h0 hr
  rw [ec, eo] at hr
  refine ⟨⟨l + r * k, ?_⟩, fun s hs' => ?_, fun x hz hx => ?_⟩
  · rw [hg, hr, add_smul, mul_smul, add_assoc]
  · rw [hsl] at hs'
    obtain ⟨k', hk', e'⟩ := globalDirection_stored a _ s hs'
    exact ⟨k' * k, mul_ne_zero hk' hk, by rw [e', eo, smul_smul]⟩
  · have hx0 : OnPlane (pos a) (dutNormal a.alpha a.beta a.gamma) (placed a x) := by
      refine (BTA.Props.onPlane_dut a _).mpr ?_
      unfold placed
      rw [add_sub_cancel_right, Matrix.mulVec_mulVec, rotationMatrix_orth, Matrix.one_mulVec]
      exact hz
    have hx1 : OnLine (centre (trackHits g c)) (orient u) (placed a x) := by
      obtain ⟨b, hb⟩ := hx
      refine ⟨(b - l) / k, ?_⟩
      rw [hb, ec, eo, smul_smul, div_mul_cancel₀ _ hk, sub_smul]
      abel
    have hcr := (crossing_ok (centre (trackHits g c), orient u) a (placed a x)).mpr ⟨h0, hx1, hx0⟩
    rw [hq] at hcr
    injection hcr with hcr
    have : toLocal a (placed a x) = ![x.x, x.y, x.z] := by
      unfold toLocal placed
      rw [← apply_localToGlobal, global_local]
    rw [hpos, hcr, this]
    exact ⟨rfl, rfl⟩

/-- C144: nothing but the positions of the hits in the fit DUTs has an influence on the stored tracks: neither the errors of the hits, nor
the hits of other DUTs. -/
theorem C144_only_positions (g : Config) (hn : g.slices ≠ 0) (cands cands' : List Cand) (hlen : cands'.length = cands.length)
    (hsame : ∀ (i : Nat) (c c' : Cand), cands[i]? = some c → cands'[i]? = some c' → ∀ d ∈ g.fitDuts,
      (c d).map (fun x => (x.x, x.y, x.z)) = (c' d).map fun x => (x.x, x.y, x.z)) (ts : List Track) (h : fitChunk g cands = .ok ts) :
    ∃ ts', fitChunk g cands' = .ok ts' ∧ ts'.length = ts.length ∧
      ∀ (i : Nat) (t t' : Track), ts[i]? = some t → ts'[i]? = some t' → ∀ d, t'.est d = t.est d := by
  have hhit : ∀ (a : Alignment) (o o' : Option Hit), o.map (fun x => (x.x, x.y, x.z)) = o'.map (fun x => (x.x, x.y, x.z)) →
      o.map (globalHit a) = o'.map (globalHit a) := by
    intro a o o' e
    cases o with
    | none => cases o' with
      | none => rfl
      | some y => cases e
    | some x => cases o' with
      | none => cases e
      | some y =>
        simp only [Option.map_some, Option.some.injEq, Prod.mk.injEq] at e ⊢
        unfold globalHit
        rw [e.1, e.2.1, e.2.2]
  have hth : ∀ (i : Nat) (c c' : Cand), cands[i]? = some c → cands'[i]? = some c' → trackHits g c = trackHits g c' := by
    intro i c c' h1 h2
    unfold trackHits
    refine List.filterMap_congr fun q _ => ?_
    split_ifs with hq
    · exact hhit q.1 _ _ (hsame i c c' h1 h2 q.2 hq)
    · rfl
  have hmap : cands.map (trackHits g) = cands'.map (trackHits g) := by
    refine List.ext_getElem (by simp [hlen]) fun i h1 h2 => ?_
    simp only [List.length_map] at h1 h2
    rw [List.getElem_map, List.getElem_map]
    exact hth i _ _ (List.getElem?_eq_getElem h1) (List.getElem?_eq_getElem h2)
  have hz : zBad g cands' = zBad g cands := by
    unfold zBad
    have : ∀ q ∈ g.duts.zipIdx, (decide (q.2 ∈ g.fitDuts) && !zClose ((cands'.filterMap fun c => c q.2).map Hit.z)) =
        (decide (q.2 ∈ g.fitDuts) && !zClose ((cands.filterMap fun c => c q.2).map Hit.z)) := by
      intro q _
      by_cases hq : q.2 ∈ g.fitDuts
      · have e1 : ∀ l : List Cand, (l.filterMap fun c => c q.2).map Hit.z =
            (l.map fun c => (c q.2).map fun x => (x.x, x.y, x.z)).filterMap fun o => o.map fun y => y.2.2 := by
          intro l
          rw [List.filterMap_map, List.map_filterMap]
          refine List.filterMap_congr fun c _ => ?_
          dsimp only [Function.comp_apply]
          cases c q.2 <;> rfl
        have e2 : (cands'.map fun c => (c q.2).map fun x => (x.x, x.y, x.z)) = cands.map fun c => (c q.2).map fun x => (x.x, x.y, x.z) := by
          refine List.ext_getElem (by simp [hlen]) fun i h1 h2 => ?_
          simp only [List.length_map] at h1 h2
          rw [List.getElem_map, List.getElem_map]
          exact (hsame i _ _ (List.getElem?_eq_getElem h2) (List.getElem?_eq_getElem h1) q.2 hq).symm
        rw [e1 cands', e1 cands, e2]
      · simp [hq]
    rw [Bool.eq_iff_iff, List.any_eq_true, List.any_eq_true]
    constructor
    · rintro ⟨q, hq, h1⟩
      exact ⟨q, hq, this q hq ▸ h1⟩
    · rintro ⟨q, hq, h1⟩
      exact ⟨q, hq, (this q hq).symm ▸ h1⟩
  have hlines : lines g cands' = lines g cands := by
    unfold lines
    rw [hmap]
  unfold fitChunk at h ⊢
  rw [hz, hlines]
  cases hb : zBad g cands with
  | true => rw [hb] at h; cases h
  | false =>
    rw [hb] at h
    simp only [Bool.false_eq_true, if_false] at h ⊢
    cases he : estimates (lines g cands) g.duts with
    | error e => rw [he] at h; cases h
    | ok es =>
      rw [he] at h
      injection h with h
      subst h
      refine ⟨_, rfl, by simp [hlen], fun i t t' h1 h2 d => ?_⟩
      rw [List.getElem?_map, List.getElem?_zipIdx] at h1 h2
      obtain ⟨q1, hq1, rfl⟩ := Option.map_eq_some_iff.mp h1
      obtain ⟨q2, hq2, rfl⟩ := Option.map_eq_some_iff.mp h2
      obtain ⟨_, _, rfl⟩ := Option.map_eq_some_iff.mp hq1
      obtain ⟨_, _, rfl⟩ := Option.map_eq_some_iff.mp hq2
      rfl

/-! ### C145 -/

theorem residual_none (g : Config) (c : Cand) (est : Nat → Option Est) (d : Nat) (h : est d = none) : residual g c est d = none := by
  unfold residual
  rw [h]
  cases c d <;> rfl

/-- C145: chi2 is the sum of the squares of the residuals divided by the errors, over the hits in the fit DUTs, provided that no fit DUT is
named twice and that no error is zero. The residuals are those of the stored track, minus the correction. Only the DUTs of the
telescope have estimates. -/
theorem C145_chi2_partial (g : Config) (hn : g.slices ≠ 0) (cands : List Cand) (ts : List Track) (h : fitChunk g cands = .ok ts)
    (i : Nat) (c : Cand) (t : Track) (hc : cands[i]? = some c) (ht : ts[i]? = some t) (hdup : g.fitDuts.Nodup)
    (herr : ∀ d ∈ g.fitDuts, ∀ x, c d = some x → x.ex ≠ 0 ∧ x.ey ≠ 0) :
    t.chi2 = ∑ d ∈ g.fitDuts.toFinset, match c d, t.est d with
      | some x, some e => ((x.x - e.pos 0 - (g.shift d).1) / x.ex) ^ 2 + ((x.y - e.pos 1 - (g.shift d).2) / x.ey) ^ 2
      | _, _ => 0 := by
  obtain ⟨-, hi⟩ := fitChunk_ok g hn cands ts h
  obtain ⟨-, -, -, h4, -, -⟩ := hi i c t hc ht
  rw [h4]
  unfold chi2
  rw [List.sum_toFinset _ hdup]
  congr 1
  refine List.map_congr_left fun d hd => ?_
  unfold chi2Of residual
  cases hx : c d with
  | none => rfl
  | some x =>
    cases he : t.est d with
    | none => rfl
    | some e =>
      obtain ⟨h1, h2⟩ := herr d hd x hx
      dsimp only
      unfold pull2
      rw [if_neg h1, if_neg h2, div_pow, div_pow]

/-- C145: the reduced chi2 is chi2 divided by the number of degrees of freedom, two for each hit in a fit DUT minus four for the line, if
there are more than two hits; the probability is always zero. -/
theorem C145_reduced (g : Config) (hn : g.slices ≠ 0) (cands : List Cand) (ts : List Track) (h : fitChunk g cands = .ok ts)
    (i : Nat) (c : Cand) (t : Track) (hc : cands[i]? = some c) (ht : ts[i]? = some t) (hdup : g.fitDuts.Nodup) :
    let n := (g.fitDuts.toFinset.filter fun d => (c d).isSome ∧ (t.est d).isSome).card
    (n ≠ 2 → t.chi2Red = t.chi2 / (2 * n - 4)) ∧ t.chi2Prob = 0 := by
  obtain ⟨-, hi⟩ := fitChunk_ok g hn cands ts h
  obtain ⟨-, -, -, h4, h5, h6⟩ := hi i c t hc ht
  have hcard : (g.fitDuts.toFinset.filter fun d => (c d).isSome ∧ (t.est d).isSome).card = nHits g c t.est := by
    have : (g.fitDuts.toFinset.filter fun d => (c d).isSome ∧ (t.est d).isSome) =
        (g.fitDuts.filter fun d => (residual g c t.est d).isSome).toFinset := by
      ext d
      rw [Finset.mem_filter, List.mem_toFinset, List.mem_toFinset, List.mem_filter]
      refine and_congr_right fun _ => ?_
      unfold residual
      cases c d <;> cases t.est d <;> simp
    rw [this, List.toFinset_card_of_nodup (hdup.filter _)]
    rfl
  dsimp only
  rw [hcard]
  refine ⟨fun h2 => ?_, h6⟩
  rw [h5, h4]
  unfold chi2Red
  have hne : 2 * ((nHits g c t.est : ℝ) - 2) ≠ 0 := by
    intro h0
    apply h2
    have : (nHits g c t.est : ℝ) = 2 := by linarith
    exact_mod_cast this
  split_ifs with h0
  · rw [h0, zero_div]
  · congr 1
    ring

/-- C145: the limits of the above. A fit DUT named twice counts twice, and errors that are zero do not count at all, whatever the residuals
are. -/
theorem C145_twice (g : Config) (hn : g.slices ≠ 0) (cands : List Cand) (ts : List Track) (h : fitChunk g cands = .ok ts) :
    ∃ ts', fitChunk { g with fitDuts := g.fitDuts ++ g.fitDuts } cands = .ok ts' ∧
      ∀ (i : Nat) (t t' : Track), ts[i]? = some t → ts'[i]? = some t' → (∀ d, t'.est d = t.est d) ∧ t'.chi2 = 2 * t.chi2 := by
  have hz : zBad { g with fitDuts := g.fitDuts ++ g.fitDuts } cands = zBad g cands := by simp [zBad]
  have hh : trackHits { g with fitDuts := g.fitDuts ++ g.fitDuts } = trackHits g := by
    funext c
    simp [trackHits]
  have hl : lines { g with fitDuts := g.fitDuts ++ g.fitDuts } cands = lines g cands := by
    unfold lines
    rw [hh]
  have hchi : ∀ c est, chi2 { g with fitDuts := g.fitDuts ++ g.fitDuts } c est = 2 * chi2 g c est := by
    intro c est
    unfold chi2
    dsimp only
    rw [List.map_append, List.sum_append]
    have : chi2Of { g with fitDuts := g.fitDuts ++ g.fitDuts } c est = chi2Of g c est := rfl
    rw [this]
    ring
  unfold fitChunk at h ⊢
  rw [hz, hl]
  cases hb : zBad g cands with
  | true => rw [hb] at h; cases h
  | false =>
    rw [hb] at h
    simp only [Bool.false_eq_true, if_false] at h ⊢
    cases he : estimates (lines g cands) g.duts with
    | error e => rw [he] at h; cases h
    | ok es =>
      rw [he] at h
      injection h with h
      subst h
      refine ⟨_, rfl, fun i t t' h1 h2 => ?_⟩
      rw [List.getElem?_map, List.getElem?_zipIdx] at h1 h2
      obtain ⟨q1, hq1, rfl⟩ := Option.map_eq_some_iff.mp h1
      obtain ⟨q2, hq2, rfl⟩ := Option.map_eq_some_iff.mp h2
      rw [hq1] at hq2
      injection hq2 with hq2
      subst hq2
      exact ⟨fun _ => rfl, hchi _ _⟩

theorem C145_zero_error (g : Config) (hn : g.slices ≠ 0) (cands : List Cand) (ts : List Track) (h : fitChunk g cands = .ok ts)
    (i : Nat) (c : Cand) (t : Track) (hc : cands[i]? = some c) (ht : ts[i]? = some t)
    (herr : ∀ d ∈ g.fitDuts, ∀ x, c d = some x → x.ex = 0 ∧ x.ey = 0) : t.chi2 = 0 := by
  obtain ⟨-, hi⟩ := fitChunk_ok g hn cands ts h
  obtain ⟨-, -, -, h4, -, -⟩ := hi i c t hc ht
  rw [h4]
  unfold chi2
  refine List.sum_eq_zero fun y hy => ?_
  obtain ⟨d, hd, rfl⟩ := List.mem_map.mp hy
  unfold chi2Of residual
  cases hx : c d with
  | none => rfl
  | some x =>
    cases he : t.est d with
    | none => rfl
    | some e =>
      obtain ⟨h1, h2⟩ := herr d hd x hx
      dsimp only
      unfold pull2
      rw [if_pos h1, if_pos h2, add_zero]

/-- C145: hits on a straight line have chi2 zero, if the residuals are not corrected. -/
theorem C145_line (g : Config) (hn : g.slices ≠ 0) (hs : Svd g) (cands : List Cand) (ts : List Track) (h : fitChunk g cands = .ok ts)
    (i : Nat) (c : Cand) (t : Track) (hc : cands[i]? = some c) (ht : ts[i]? = some t) (p v : Vec3) (hl : HitsOn g c p v)
    (hz : ∀ d ∈ g.fitDuts, ∀ x, c d = some x → x.z = 0) (hsh : ∀ d ∈ g.fitDuts, g.shift d = (0, 0)) :
    t.chi2 = 0 ∧ t.chi2Red = 0 := by
  obtain ⟨-, hi⟩ := fitChunk_ok g hn cands ts h
  obtain ⟨-, -, hnone, h4, h5, -⟩ := hi i c t hc ht
  have h0 : chi2 g c t.est = 0 := by
    unfold chi2
    refine List.sum_eq_zero fun y hy => ?_
    obtain ⟨d, hd, rfl⟩ := List.mem_map.mp hy
    unfold chi2Of residual
    cases hx : c d with
    | none => rfl
    | some x =>
      cases he : t.est d with
      | none => rfl
      | some e =>
        cases ha : g.duts[d]? with
        | none =>
          rw [hnone d ha] at he
          cases he
        | some a =>
          obtain ⟨-, -, h3⟩ := C144_line g hn hs cands ts h i c t hc ht p v hl d a e ha he
          obtain ⟨e1, e2⟩ := h3 x (hz d hd x hx) (hl.1 d hd a x ⟨ha, hx⟩)
          dsimp only
          rw [hsh d hd, e1, e2]
          simp [pull2]
  refine ⟨h4.trans h0, ?_⟩
  rw [h5]
  unfold chi2Red
  rw [if_pos h0]

/-- C145: a track with two hits in the fit DUTs has chi2 zero: the line passes through both. -/
theorem C145_two_hits (g : Config) (hn : g.slices ≠ 0) (hs : Svd g) (cands : List Cand) (ts : List Track) (h : fitChunk g cands = .ok ts)
    (i : Nat) (c : Cand) (t : Track) (hc : cands[i]? = some c) (ht : ts[i]? = some t) (d d' : Nat) (hd : d ∈ g.fitDuts)
    (hd' : d' ∈ g.fitDuts) (a a' : Alignment) (x x' : Hit) (hx : HasHit g c d a x) (hx' : HasHit g c d' a' x')
    (hne : placed a x ≠ placed a' x') (honly : ∀ b ∈ g.fitDuts, (c b).isSome → b = d ∨ b = d')
    (hz : ∀ b ∈ g.fitDuts, ∀ y, c b = some y → y.z = 0) (hsh : ∀ b ∈ g.fitDuts, g.shift b = (0, 0)) :
    t.chi2 = 0 ∧ t.chi2Red = 0 := by
  refine C145_line g hn hs cands ts h i c t hc ht (placed a x) (placed a' x' - placed a x) ⟨?_, d, hd, d', hd', a, x, a', x', hx, hx', hne⟩
    hz hsh
  intro b hb a1 x1 h1
  rcases honly b hb (by rw [h1.2]; rfl) with rfl | rfl
  · obtain ⟨e1, e2⟩ := h1
    rw [hx.1] at e1
    rw [hx.2] at e2
    injection e1 with e1
    injection e2 with e2
    subst e1 e2
    exact ⟨0, by simp⟩
  · obtain ⟨e1, e2⟩ := h1
    rw [hx'.1] at e1
    rw [hx'.2] at e2
    injection e1 with e1
    injection e2 with e2
    subst e1 e2
    exact ⟨1, by simp⟩

/-! ### C146 -/

/-- C146: the stored tracks of two DUTs are the same straight line: the point of one is on the line of the other, and the directions are
parallel. The local position is on the sensor, the local direction has length one and does not point backwards. -/
theorem C146_same_line (g : Config) (hn : g.slices ≠ 0) (hs : Svd g) (cands : List Cand) (ts : List Track) (h : fitChunk g cands = .ok ts)
    (i : Nat) (c : Cand) (t : Track) (hc : cands[i]? = some c) (ht : ts[i]? = some t) (d d' : Nat) (a a' : Alignment) (e e' : Est)
    (ha : g.duts[d]? = some a) (ha' : g.duts[d']? = some a') (he : t.est d = some e) (he' : t.est d' = some e') :
    ∃ s s', e.slope = some s ∧ e'.slope = some s' ∧ OnLine (globalPoint a e) (globalDirection a s) (globalPoint a' e') ∧
      (∃ k : ℝ, k ≠ 0 ∧ globalDirection a' s' = k • globalDirection a s) ∧ e.pos 2 = 0 ∧ dot s s = 1 ∧ 0 ≤ s 2 := by
  obtain ⟨v, hv, hv1, p, hp, hg, hpos, hsl⟩ := stored_line g hn hs cands ts h i c t hc ht d a e ha he
  obtain ⟨v', hv', -, p', hp', hg', -, hsl'⟩ := stored_line g hn hs cands ts h i c t hc ht d' a' e' ha' he'
  rw [hv] at hv'
  injection hv' with hv'
  subst hv'
  have ho : orient v ≠ 0 := by
    rcases orient_unit_smul v hv1 with h | h <;> rw [h]
    · exact ne_zero_of_unit v hv1
    · exact neg_ne_zero.mpr (ne_zero_of_unit v hv1)
  obtain ⟨s, hs1⟩ := storedSlope_some a _ ho
  obtain ⟨s', hs1'⟩ := storedSlope_some a' _ ho
  obtain ⟨k, hk, e1⟩ := globalDirection_stored a _ s hs1
  obtain ⟨k', hk', e1'⟩ := globalDirection_stored a' _ s' hs1'
  obtain ⟨-, ⟨r, hr⟩, hpl⟩ := (crossing_ok _ _ _).mp hp
  obtain ⟨-, ⟨r', hr'⟩, -⟩ := (crossing_ok _ _ _).mp hp'
  dsimp only at hr hr'
  refine ⟨s, s', hsl.trans hs1, hsl'.trans hs1', ⟨(r' - r) / k, ?_⟩, ⟨k' / k, div_ne_zero hk' hk, ?_⟩, ?_, ?_⟩
  · rw [hg, hg', hr, hr', e1, smul_smul, div_mul_cancel₀ _ hk, sub_smul]
    abel
  · rw [e1, e1', smul_smul, div_mul_cancel₀ _ hk]
  · rw [hpos]
    exact toLocal_z a p hpl
  · unfold Angle.storedSlope Angle.normalize at hs1
    split_ifs at hs1 with h0
    injection hs1 with hs1
    set w := Angle.forward (applyTransformation (globalToLocalMatrix 0 0 0 a.alpha a.beta a.gamma) (orient v)) with hw
    have hw2 : 0 ≤ w 2 := by
      rw [hw]
      unfold Angle.forward
      split_ifs with h2
      · rw [Pi.neg_apply]; linarith
      · linarith
    have hmul : Real.sqrt (dot w w) * Real.sqrt (dot w w) = dot w w := Real.mul_self_sqrt (Angle.dot_self_nonneg w)
    refine ⟨?_, ?_⟩
    · rw [← hs1]
      have : dot ((Real.sqrt (dot w w))⁻¹ • w) ((Real.sqrt (dot w w))⁻¹ • w) =
          (Real.sqrt (dot w w))⁻¹ * (Real.sqrt (dot w w))⁻¹ * dot w w := by
        simp [dot]
        ring
      rw [this]
      calc (Real.sqrt (dot w w))⁻¹ * (Real.sqrt (dot w w))⁻¹ * dot w w
          = (Real.sqrt (dot w w))⁻¹ * (Real.sqrt (dot w w))⁻¹ * (Real.sqrt (dot w w) * Real.sqrt (dot w w)) := by rw [hmul]
        _ = 1 := by field_simp
    · rw [← hs1]
      exact mul_nonneg (inv_nonneg.mpr (Real.sqrt_nonneg _)) hw2

/-- C146: every track has an estimate for every DUT of the telescope, if the singular value decomposition does not fail. -/
theorem C146_all (g : Config) (hn : g.slices ≠ 0) (hcv : Converges g) (cands : List Cand) (ts : List Track)
    (h : fitChunk g cands = .ok ts) : ts.length = cands.length ∧ ∀ (i : Nat) (t : Track), ts[i]? = some t → ∀ d,
      (t.est d).isSome ↔ d < g.duts.length := by
  obtain ⟨hl, hi⟩ := fitChunk_ok g hn cands ts h
  refine ⟨hl, fun i t ht d => ?_⟩
  have hlt : i < cands.length := by
    rw [← hl]
    exact (List.getElem?_eq_some_iff.mp ht).1
  obtain ⟨-, h2, h3, -⟩ := hi i _ t (List.getElem?_eq_getElem hlt) ht
  constructor
  · intro hsome
    by_contra hd
    rw [h3 d (List.getElem?_eq_none (by omega))] at hsome
    cases hsome
  · intro hd
    obtain ⟨v, hv⟩ := Option.isSome_iff_exists.mp
      (hcv ((trackHits g cands[i]).map fun p => p - centre (trackHits g cands[i])))
    obtain ⟨p, -, e⟩ := h2 d _ (centre (trackHits g cands[i]), orient v) (List.getElem?_eq_getElem hd)
      (by unfold fitLine; rw [hv]; rfl)
    rw [e]
    rfl

/-- C146: an exception is raised exactly if a hit in a fit DUT is not on the sensor, or if a single fitted track is parallel to a single
DUT of the telescope, whether the DUT is used or not. -/
theorem C146_raises_iff (g : Config) (hn : g.slices ≠ 0) (hs : Svd g) (cands : List Cand) :
    (∃ e, fitChunk g cands = .error e) ↔
      (∃ d ∈ g.fitDuts, d < g.duts.length ∧ ∃ c ∈ cands, ∃ x, c d = some x ∧ 1 / 10 ^ 8 < |x.z|) ∨
      ∃ a ∈ g.duts, ∃ c ∈ cands, ∃ v, g.svd ((trackHits g c).map fun p => p - centre (trackHits g c)) = some v ∧
        ∃ u w : ℝ, v = (rotationMatrix a.alpha a.beta a.gamma).mulVec ![u, w, 0] := by
  have hz : zBad g cands = true ↔ ∃ d ∈ g.fitDuts, d < g.duts.length ∧ ∃ c ∈ cands, ∃ x, c d = some x ∧ 1 / 10 ^ 8 < |x.z| := by
    unfold zBad
    rw [List.any_eq_true]
    constructor
    · rintro ⟨⟨a, d⟩, hm, h⟩
      rw [Bool.and_eq_true, decide_eq_true_eq, Bool.not_eq_true', ← Bool.not_eq_true, zClose, List.all_eq_true] at h
      obtain ⟨hd, h⟩ := h
      push Not at h
      obtain ⟨z, hzm, h⟩ := h
      obtain ⟨x, hx, rfl⟩ := List.mem_map.mp hzm
      obtain ⟨c, hc, hx⟩ := List.mem_filterMap.mp hx
      refine ⟨d, hd, ?_, c, hc, x, hx, ?_⟩
      · exact (List.getElem?_eq_some_iff.mp (List.mem_zipIdx_iff_getElem?.mp hm)).1
      · rw [ne_eq, decide_eq_true_eq, not_le] at h
        exact h
    · rintro ⟨d, hd, hlt, c, hc, x, hx, h⟩
      refine ⟨(g.duts[d], d), List.mem_zipIdx_iff_getElem?.mpr (List.getElem?_eq_getElem hlt), ?_⟩
      rw [Bool.and_eq_true, decide_eq_true_eq, Bool.not_eq_true', ← Bool.not_eq_true, zClose, List.all_eq_true]
      refine ⟨hd, fun hall => ?_⟩
      have := hall x.z (List.mem_map.mpr ⟨x, List.mem_filterMap.mpr ⟨c, hc, hx⟩, rfl⟩)
      rw [decide_eq_true_eq] at this
      linarith
  have hp : (∃ a ∈ g.duts, ∃ c ∈ cands, ∃ l, fitLine g.svd (trackHits g c) = some l ∧ dot (dutNormal a.alpha a.beta a.gamma) l.2 = 0) ↔
      ∃ a ∈ g.duts, ∃ c ∈ cands, ∃ v, g.svd ((trackHits g c).map fun p => p - centre (trackHits g c)) = some v ∧
        ∃ u w : ℝ, v = (rotationMatrix a.alpha a.beta a.gamma).mulVec ![u, w, 0] := by
    have key : ∀ (a : Alignment) (v : Vec3), dot v v = 1 → (dot (dutNormal a.alpha a.beta a.gamma) (orient v) = 0 ↔
        ∃ u w : ℝ, v = (rotationMatrix a.alpha a.beta a.gamma).mulVec ![u, w, 0]) := by
      intro a v hv
      have h1 : dot (dutNormal a.alpha a.beta a.gamma) (orient v) = 0 ↔ dot (dutNormal a.alpha a.beta a.gamma) v = 0 := by
        rcases orient_unit_smul v hv with h | h <;> rw [h]
        have : ∀ u : Vec3, dot u (-v) = -dot u v := by intro u; simp [dot]; ring
        rw [this, neg_eq_zero]
      rw [h1]
      have h2 := BTA.Props.C33_dut_raises_iff a [(0, v)]
      unfold intersectDut at h2
      rw [BTA.Props.C33_raises_iff] at h2
      simpa using h2
    constructor
    · rintro ⟨a, ha, c, hc, l, hl, h0⟩
      obtain ⟨v, hv, rfl⟩ := fitLine_some _ _ _ hl
      exact ⟨a, ha, c, hc, v, hv, (key a v (hs _ _ hv).1).mp h0⟩
    · rintro ⟨a, ha, c, hc, v, hv, h0⟩
      exact ⟨a, ha, c, hc, _, by unfold fitLine; rw [hv]; rfl, (key a v (hs _ _ hv).1).mpr h0⟩
  rw [← hz, ← hp]
  constructor
  · rintro ⟨e, h⟩
    rcases (fitChunk_error g hn cands e).mp h with ⟨-, h⟩ | ⟨-, -, h⟩
    · exact .inl h
    · exact .inr h
  · intro h
    by_cases hb : zBad g cands = true
    · exact ⟨_, (fitChunk_error g hn cands _).mpr (.inl ⟨rfl, hb⟩)⟩
    · rcases h with h | h
      · exact absurd h hb
      · exact ⟨_, (fitChunk_error g hn cands _).mpr (.inr ⟨rfl, Bool.eq_false_iff.mpr hb, h⟩)⟩

/-! ### C147 -/

/-- C147: the number of processes has no influence on the tracks. -/
theorem C147_slices (g : Config) (n m : Nat) (hn : n ≠ 0) (hm : m ≠ 0) (cands : List Cand) :
    fitChunk { g with slices := n } cands = fitChunk { g with slices := m } cands := by
  have h : lines { g with slices := n } cands = lines { g with slices := m } cands := by
    rw [lines_eq _ hn, lines_eq _ hm]
    rfl
  unfold fitChunk
  rw [h]
  rfl

/-- C147: no candidate is lost or fitted twice when the work is split, and the sizes of the parts differ by one at most. -/
theorem C147_split {V : Type} (n : Nat) (hn : n ≠ 0) (l : List V) : (arraySplit n l).flatten = l ∧ (arraySplit n l).length = n ∧
    ∀ s ∈ arraySplit n l, l.length / n ≤ s.length ∧ s.length ≤ l.length / n + 1 := by
  refine ⟨arraySplit_flatten n hn l, by simp [arraySplit], fun s hs => ?_⟩
  unfold arraySplit at hs
  obtain ⟨i, hi, rfl⟩ := List.mem_map.mp hs
  rw [List.mem_range] at hi
  have h2 := Nat.div_add_mod l.length n
  have h3 : l.length % n < n := Nat.mod_lt _ (by omega)
  have h4 : (i + 1) * (l.length / n) ≤ n * (l.length / n) := Nat.mul_le_mul_right _ hi
  rw [add_mul, one_mul] at h4
  rw [List.length_take, List.length_drop]
  split <;> omega

/-! ### A telescope with tracks that fulfill the hypotheses above -/

/-- Three DUTs, of which the first and the last are used for fitting. -/
noncomputable def exampleConfig (svd : List Vec3 → Option Vec3) : Config :=
  { duts := [⟨0, 0, 0, 0, 0, 0⟩, ⟨0, 0, 10, 0, 0, 0⟩, ⟨0, 0, 30, 0, 0, 0⟩], fitDuts := [0, 2], shift := fun _ => (0, 0), svd := svd,
    slices := 2, divZero := fun _ => 0 }

/-- A track with a hit in each DUT. The hit in the second DUT is not on the line through the others. -/
noncomputable def exampleCand : Cand
  | 0 => some ⟨1, 2, 0, 1, 1⟩
  | 1 => some ⟨5, 5, 0, 1, 1⟩
  | 2 => some ⟨4, 2, 0, 2, 2⟩
  | _ => none

theorem rotation_none (x y z : ℝ) : (rotationMatrix 0 0 0).mulVec ![x, y, z] = ![x, y, z] := by
  have h : rotationMatrix 0 0 0 = 1 := by
    unfold rotationMatrix rotZ rotY rotX
    ext i j
    fin_cases i <;> fin_cases j <;> simp [Matrix.mul_apply, Fin.sum_univ_three]
  rw [h, Matrix.one_mulVec]

theorem example_line (svd : List Vec3 → Option Vec3) : HitsOn (exampleConfig svd) exampleCand ![1, 2, 0] ![1, 0, 10] := by
  have hp0 : placed ⟨0, 0, 0, 0, 0, 0⟩ ⟨1, 2, 0, 1, 1⟩ = ![1, 2, 0] := by
    unfold placed
    rw [rotation_none]
    simp
  have hp2 : placed ⟨0, 0, 30, 0, 0, 0⟩ ⟨4, 2, 0, 2, 2⟩ = ![4, 2, 30] := by
    unfold placed
    rw [rotation_none]
    simp
  refine ⟨?_, 0, by simp [exampleConfig], 2, by simp [exampleConfig], _, _, _, _, ⟨rfl, rfl⟩, ⟨rfl, rfl⟩, ?_⟩
  · intro d hd a x ⟨ha, hx⟩
    simp only [exampleConfig, List.mem_cons, List.not_mem_nil, or_false] at hd
    rcases hd with rfl | rfl
    · injection ha with ha
      injection hx with hx
      subst ha hx
      exact ⟨0, by rw [hp0]; simp⟩
    · injection ha with ha
      injection hx with hx
      subst ha hx
      refine ⟨3, ?_⟩
      rw [hp2]
      simp
      norm_num
  · rw [hp0, hp2]
    intro h
    have := congrFun h 0
    simp at this

theorem example_ok : ∃ svd ts, Svd (exampleConfig svd) ∧ Converges (exampleConfig svd) ∧
    fitChunk (exampleConfig svd) [exampleCand, exampleCand] = .ok ts := by
  obtain ⟨svd0, h0⟩ := exists_svd
  have hs : Svd (exampleConfig fun rows => some (svd0 rows)) := by
    intro rows v h
    injection h with h
    subst h
    exact h0 rows
  refine ⟨fun rows => some (svd0 rows), ?_⟩
  cases h : fitChunk (exampleConfig fun rows => some (svd0 rows)) [exampleCand, exampleCand] with
  | ok ts => exact ⟨ts, hs, fun _ => rfl, rfl⟩
  | error e =>
    exfalso
    rcases (C146_raises_iff _ (by simp [exampleConfig]) hs _).mp ⟨e, h⟩ with ⟨d, hd, -, c, hc, x, hx, hz⟩ | ⟨a, ha, c, hc, v, hv, u, w, hw⟩
    · simp only [List.mem_cons, List.not_mem_nil, or_false, or_self] at hc
      subst hc
      simp only [exampleConfig, List.mem_cons, List.not_mem_nil, or_false] at hd
      rcases hd with rfl | rfl <;>
      · injection hx with hx
        subst hx
        norm_num at hz
    · simp only [List.mem_cons, List.not_mem_nil, or_false, or_self] at hc
      subst hc
      obtain ⟨k, l, hk, -, e2⟩ := fit_on _ hs _ _ _ (example_line _) v hv
      have hv2 : v 2 = 0 := by
        rw [hw]
        simp only [exampleConfig, List.mem_cons, List.not_mem_nil, or_false] at ha
        rcases ha with rfl | rfl | rfl <;>
        · rw [rotation_none]
          rfl
      have : (orient v) 2 = k * 10 := by rw [e2]; rfl
      rcases orient_unit_smul v (hs _ _ hv).1 with h1 | h1 <;> rw [h1] at this
      · rw [hv2] at this
        exact hk (by linarith)
      · rw [Pi.neg_apply, hv2] at this
        exact hk (by linarith)

/-- C144, C146: the stored track of the example is the line through the hits of the fit DUTs, at 2 mm in x in the second DUT, although this
DUT has a hit at 5. -/
example : ∃ svd ts, fitChunk (exampleConfig svd) [exampleCand, exampleCand] = .ok ts ∧ ∃ t e, ts[1]? = some t ∧ t.est 1 = some e ∧
    e.pos 0 = 2 ∧ e.pos 1 = 2 ∧ t.chi2 = 0 := by
  obtain ⟨svd, ts, hs, hcv, h⟩ := example_ok
  have hn : (exampleConfig svd).slices ≠ 0 := by simp [exampleConfig]
  obtain ⟨hl, hall⟩ := C146_all _ hn hcv _ ts h
  have hlt : 1 < ts.length := by rw [hl]; decide
  have ht := List.getElem?_eq_getElem hlt
  obtain ⟨e, he⟩ := Option.isSome_iff_exists.mp ((hall 1 _ ht 1).mpr (by simp [exampleConfig]))
  obtain ⟨-, -, h3⟩ := C144_line _ hn hs _ ts h 1 _ _ rfl ht _ _ (example_line svd) 1 _ e rfl he
  obtain ⟨e1, e2⟩ := h3 ⟨2, 2, 0, 1, 1⟩ rfl (by
    refine ⟨1, ?_⟩
    unfold placed
    rw [rotation_none]
    simp
    norm_num)
  refine ⟨svd, ts, h, _, e, ht, he, e1, e2, (C145_line _ hn hs _ ts h 1 _ _ rfl ht _ _ (example_line svd) ?_ fun _ _ => rfl).1⟩
  intro d hd x hx
  simp only [exampleConfig, List.mem_cons, List.not_mem_nil, or_false] at hd
  rcases hd with rfl | rfl <;>
  · injection hx with hx
    subst hx
    rfl

/-- C145: errors that are not zero and DUTs that are named once. -/
example (svd : List Vec3 → Option Vec3) : (exampleConfig svd).fitDuts.Nodup ∧
    ∀ d ∈ (exampleConfig svd).fitDuts, ∀ x, exampleCand d = some x → x.ex ≠ 0 ∧ x.ey ≠ 0 := by
  refine ⟨by simp [exampleConfig], fun d hd x hx => ?_⟩
  simp only [exampleConfig, List.mem_cons, List.not_mem_nil, or_false] at hd
  rcases hd with rfl | rfl <;>
  · injection hx with hx
    subst hx
    norm_num

/-- C147: seven candidates for three processes. -/
example : arraySplit 3 [1, 2, 3, 4, 5, 6, 7] = [[1, 2, 3], [4, 5], [6, 7]] := by decide +kernel

end BTA.Line.Props
