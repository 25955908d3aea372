import Verif.Model.ChainFit
import Verif.Spec.ChainEff
import Verif.Props.Chain
import Verif.Props.FitTracks
import Verif.Props.EfficiencyReturns
/-
C188: the measured efficiency is the true efficiency.
-/
namespace BTA.Chain.Props
open BTA.Chain BTA.MergedColumns BTA.Line BTA.Dut BTA.Geo BTA.Spec BTA.Merge BTA.FindFile
open BTA.Fit (Sampling DutCfg)
open BTA.Efficiency (Setup Output)
open BTA.Efficiency.Spec (Used Close Matched TrackIn ratio Correct)

/-! ### Counting -/

/-- Numbering of the rows of each event. -/
theorem exists_ranks {ρ : Type} (ev : ρ → Int) (l : List ρ) : ∃ L : List (Int × Nat), L.Nodup ∧
    (∀ p, p ∈ L ↔ p.2 < (l.filter fun x => decide (ev x = p.1)).length) ∧
    List.Forall₂ (fun x p => ev x = p.1 ∧ (l.filter fun x => decide (ev x = p.1))[p.2]? = some x) l L := by
  induction l using List.reverseRecOn with
  | nil => exact ⟨[], List.nodup_nil, by simp, .nil⟩
  | append_singleton l x ih =>
    obtain ⟨L, h1, h2, h3⟩ := ih
    have hlen : ∀ e, ((l ++ [x]).filter fun y => decide (ev y = e)).length = (l.filter fun y => decide (ev y = e)).length + if ev x = e then 1 else 0 := by
      intro e
      rw [List.filter_append, List.length_append]
      by_cases h : ev x = e <;> simp [h]
    refine ⟨L ++ [(ev x, (l.filter fun y => decide (ev y = ev x)).length)], ?_, ?_, ?_⟩
    · rw [List.nodup_append]
      refine ⟨h1, by simp, ?_⟩
      intro p hp q hq
      rw [List.mem_singleton] at hq
      subst hq
      rintro rfl
      have := (h2 _).mp hp
      exact absurd this (lt_irrefl _)
    · rintro ⟨e, r⟩
      rw [List.mem_append, h2, hlen, List.mem_singleton]
      dsimp only
      by_cases h : ev x = e
      · subst h
        rw [if_pos rfl, Prod.mk.injEq]
        constructor
        · rintro (h | ⟨-, h⟩) <;> omega
        · intro h
          by_cases h' : r = (l.filter fun y => decide (ev y = ev x)).length
          · exact .inr ⟨rfl, h'⟩
          · exact .inl (by omega)
      · rw [if_neg h, Prod.mk.injEq]
        constructor
        · rintro (h' | ⟨h', -⟩)
          · omega
          · exact absurd h'.symm h
        · intro h'
          exact .inl (by omega)
    · refine List.rel_append (h3.imp ?_) (.cons ?_ .nil)
      · rintro y ⟨e, r⟩ ⟨he, hr⟩
        refine ⟨he, ?_⟩
        rw [List.filter_append, List.getElem?_append_left (List.getElem?_eq_some_iff.mp hr).1]
        exact hr
      · refine ⟨rfl, ?_⟩
        dsimp only
        rw [List.filter_append, List.getElem?_append_right (le_refl _)]
        simp

theorem number_forall₂ {α β : Type} {R : α → β → Prop} {l : List α} {m : List β} (h : List.Forall₂ R l m) {P : α → Prop} {Q : β → Prop}
    (hPQ : ∀ a b, a ∈ l → R a b → (P a ↔ Q b)) : number l P = number m Q := by
  classical
  induction h with
  | nil => rfl
  | @cons a b _ _ hab _ ih =>
    have hrest := ih fun a b ha => hPQ a b (List.mem_cons_of_mem _ ha)
    have := hPQ _ _ List.mem_cons_self hab
    unfold number at hrest ⊢
    rw [List.filter_cons, List.filter_cons]
    simp only [decide_eq_true_eq]
    by_cases hp : P a
    · rw [if_pos hp, if_pos (this.mp hp), List.length_cons, List.length_cons, hrest]
    · rw [if_neg hp, if_neg fun h => hp (this.mpr h), hrest]

theorem number_lt {α : Type} (l : List α) (P Q : α → Prop) (h : ∀ a, P a → Q a) (a : α) (ha : a ∈ l) (hq : Q a) (hp : ¬ P a) : number l P < number l Q := by
  classical
  unfold number
  refine lt_of_le_of_ne (List.Sublist.length_le (List.monotone_filter_right l fun x hx => decide_eq_true (h x (of_decide_eq_true hx)))) ?_
  intro he
  have hsub := List.monotone_filter_right l (p := fun x => decide (P x)) (q := fun x => decide (Q x)) fun x hx => decide_eq_true (h x (of_decide_eq_true hx))
  have heq := hsub.eq_of_length he
  have : a ∈ l.filter fun x => decide (Q x) := List.mem_filter.mpr ⟨ha, decide_eq_true hq⟩
  rw [← heq] at this
  exact hp (of_decide_eq_true (List.mem_filter.mp this).2)

theorem number_map {α β : Type} (f : α → β) (l : List α) (P : β → Prop) : number (l.map f) P = number l fun a => P (f a) := by
  classical
  unfold number
  rw [List.filter_map, List.length_map]
  rfl

theorem number_filter {α : Type} (l : List α) (S : α → Prop) [DecidablePred S] (P : α → Prop) : number (l.filter fun a => decide (S a)) P = number l fun a => S a ∧ P a := by
  classical
  unfold number
  rw [List.filter_filter]
  congr 2
  funext a
  by_cases h1 : S a <;> by_cases h2 : P a <;> simp [h1, h2]

theorem number_zipIdx {α : Type} (l : List α) (P : α → Prop) : number l.zipIdx (fun p => P p.1) = number l P := by
  rw [← number_map Prod.fst, List.zipIdx_map_fst]

theorem number_nodup {α : Type} (L : List α) (hL : L.Nodup) (P : α → Prop) : number L P = Set.ncard {p | p ∈ L ∧ P p} := by
  classical
  unfold number
  have : {p | p ∈ L ∧ P p} = ((L.filter fun r => decide (P r)).toFinset : Set α) := by
    ext p
    simp
  rw [this, Set.ncard_coe_finset, List.toFinset_card_of_nodup (hL.filter _)]

/-! ### The fit -/

/-- C188: the fit of a candidate does not depend on the other candidates of the chunk. -/
theorem C188_chunk (g : Config) (hn : g.slices ≠ 0) (hs : Svd g) (cands : List Cand) (ts : List Track) (h : fitChunk g cands = .ok ts) (i : Nat) (c : Cand) (t : Track)
    (hc : cands[i]? = some c) (ht : ts[i]? = some t) : ∃ t', fitChunk g [c] = .ok [t'] ∧ t'.est = t.est := by
  cases h1 : fitChunk g [c] with
  | error e =>
    have := (BTA.Line.Props.C146_raises_iff g hn hs [c]).mp ⟨e, h1⟩
    have hmem := List.mem_of_getElem? hc
    obtain ⟨e', he'⟩ : ∃ e, fitChunk g cands = .error e := by
      refine (BTA.Line.Props.C146_raises_iff g hn hs cands).mpr ?_
      rcases this with ⟨d, hd, hdl, c', hc', x⟩ | ⟨a, ha, c', hc', x⟩
      · rw [List.mem_singleton] at hc'
        subst hc'
        exact .inl ⟨d, hd, hdl, _, hmem, x⟩
      · rw [List.mem_singleton] at hc'
        subst hc'
        exact .inr ⟨a, ha, _, hmem, x⟩
    rw [he'] at h
    cases h
  | ok ts' =>
    obtain ⟨hl', hi'⟩ := fitChunk_ok g hn _ _ h1
    obtain ⟨t', rfl⟩ := List.length_eq_one_iff.mp hl'
    refine ⟨t', rfl, ?_⟩
    obtain ⟨-, hi⟩ := fitChunk_ok g hn _ _ h
    obtain ⟨a1, a2, a3, -⟩ := hi i c t hc ht
    obtain ⟨b1, b2, b3, -⟩ := hi' 0 c t' rfl rfl
    funext d
    cases hd : g.duts[d]? with
    | none => rw [a3 d hd, b3 d hd]
    | some a =>
      cases hl : fitLine g.svd (trackHits g c) with
      | none => rw [a1 d a hd hl, b1 d a hd hl]
      | some l =>
        obtain ⟨p, hp, ep⟩ := a2 d a l hd hl
        obtain ⟨q, hq, eq⟩ := b2 d a l hd hl
        rw [hp] at hq
        rw [ep, eq, Except.ok.inj hq]

theorem lineHits_fitCand (row : Row (Value ℝ)) (d : Nat) : lineHits (fitCand row) d = (candOf row d).map fun h => ⟨h.x, h.y, 0, 1, 1⟩ := by
  unfold lineHits fitCand candOf
  dsimp only
  cases hitOf d row.cols <;> rfl

/-- The stored track of a candidate is the fit of the candidate. -/
theorem lineEst_fit (g : Config) (hn : g.slices ≠ 0) (F : Finset Nat) (row : Row (Value ℝ)) (hz : ∀ d < g.duts.length, ∀ h, candOf row d = some h → h.z = 0)
    (ts : List Track) (t : Track) (hts : fitChunk (lineConfig g F) [candOf row] = .ok ts) (ht : ts[0]? = some t) (d : Nat) (e : Est) (he : t.est d = some e) :
    lineEst g F (fitCand row) d = ⟨some (e.pos 0), some (e.pos 1), e.slope⟩ := by
  obtain ⟨ts', h1, h2, h3⟩ := BTA.Line.Props.C144_only_positions (lineConfig g F) hn [candOf row] [lineHits (fitCand row)] rfl (by
    intro i c c' hc hc' d hd
    cases i with
    | succ i => cases hc
    | zero =>
      obtain rfl := Option.some.inj hc
      obtain rfl := Option.some.inj hc'
      rw [lineHits_fitCand]
      cases hx : candOf row d with
      | none => rfl
      | some x =>
        have hdl : d < g.duts.length := by
          have := (List.mem_filter.mp hd).1
          exact List.mem_range.mp this
        simp [hz d hdl x hx]) ts hts
  have hl : ts'.length = 1 := by
    rw [h2]
    exact (fitChunk_ok (lineConfig g F) hn _ _ hts).1
  obtain ⟨t', rfl⟩ := List.length_eq_one_iff.mp hl
  have := h3 0 t t' ht rfl d
  unfold lineEst
  rw [h1]
  dsimp only
  rw [this, he]

theorem atLocal_inj (a : Alignment) (q : Vec3) (u w u' w' : ℝ) (h : AtLocal a q u w) (h' : AtLocal a q u' w') : u = u' ∧ w = w' := by
  unfold AtLocal at h h'
  have e : (rotationMatrix a.alpha a.beta a.gamma).mulVec ![u, w, 0] = (rotationMatrix a.alpha a.beta a.gamma).mulVec ![u', w', 0] := add_right_cancel (h.symm.trans h')
  have := congrArg (rotationMatrix a.alpha a.beta a.gamma).transpose.mulVec e
  rw [Matrix.mulVec_mulVec, Matrix.mulVec_mulVec, rotationMatrix_orth, Matrix.one_mulVec, Matrix.one_mulVec] at this
  exact ⟨congrFun this 0, congrFun this 1⟩

/-! ### C188 -/

theorem effRow_hit {W : Type} (k : Nat) (other : BTA.Fit.Row ℝ W → BTA.Efficiency.Row ℝ) (r : BTA.Fit.Row ℝ W) (row : Row (Value ℝ)) (h : r.cand = fitCand row) :
    (effRow k other r).hit = (candOf row k).map fun x => (x.x, x.y) := by
  unfold effRow candOf
  dsimp only
  rw [h]
  unfold fitCand
  dsimp only
  cases hitOf k row.cols <;> rfl

theorem close_zero (s : Setup ℝ) (hcx : ∀ c, s.cut.1 = some c → 0 ≤ c) (hcy : ∀ c, s.cut.2 = some c → 0 ≤ c) : Close s 0 0 := by
  unfold Close
  by_cases h : BTA.Efficiency.Spec.LargeCut s.cut.1 s.pixelSize.1 ∧ BTA.Efficiency.Spec.LargeCut s.cut.2 s.pixelSize.2
  · refine .inl ⟨h.1, h.2, ?_⟩
    have : ∀ cut : Option ℝ, BTA.Efficiency.Spec.scaled (0 : ℝ) cut = 0 := by
      intro cut
      cases cut <;> simp [BTA.Efficiency.Spec.scaled]
    rw [this, this]
    norm_num
  · refine .inr ⟨h, ?_, ?_⟩
    · intro c hc
      rw [abs_zero]
      exact hcx c hc
    · intro c hc
      rw [abs_zero]
      exact hcy c hc

/-- The hit flag decides if the track is stored. -/
theorem stored_taken (T0 : List (Clust ℝ)) (others : List (List (Clust ℝ))) (truth : Int → Truth) (c : DutCfg) (row : Row (Value ℝ)) (p : Int × Nat)
    (hb : ∀ d, (row.flag.toNat.testBit d = true ↔ HasCluster truth (T0 :: others) d p)) : Stored false c row.flag.toNat ↔ Taken truth (T0 :: others) c p := by
  classical
  unfold Stored Taken hitsIn
  have : ((ownFit c).filter fun d => row.flag.toNat.testBit d = true) = (ownFit c).filter fun d => HasCluster truth (T0 :: others) d p :=
    Finset.filter_congr fun d _ => hb d
  rw [this]
  simp only [hb]
  simp

/-- From the rows of the candidate table to the efficiency: if the fitted tracks and the hits of the rows are good enough to decide the conditions `R` with `G R`. -/
theorem efficiency_core {W : Type} (est : Finset Nat → BTA.Fit.Cand ℝ → Nat → BTA.Fit.Est ℝ W) (T0 : List (Clust ℝ)) (others : List (List (Clust ℝ))) (truth : Int → Truth) (out : List (Row (Value ℝ))) (hsort : SortedBy Row.ev out)
    (hlast : ∀ row ∈ out, ∃ x ∈ T0, row.ev ≤ x.ev) (hev : ∀ e, (∃ x ∈ T0, e ≤ x.ev) → (out.filter fun row => decide (row.ev = e)).length = (truth e).m)
    (kal : Bool) (c : DutCfg) (taken : Int × Nat → Prop)
    (hstored : ∀ (row : Row (Value ℝ)) (p : Int × Nat), row ∈ out → row.ev = p.1 → (out.filter fun x => decide (x.ev = p.1))[p.2]? = some row →
      (Stored kal c row.flag.toNat ↔ taken p))
    (planes : List (BTA.Fit.Plane ℝ)) (hcut : ∀ P ∈ planes, ValidCuts P) (S' : Sampling) (cs1 : Nat) (hcs1 : 0 < cs1) (cfgs : List DutCfg) (hfit : ∀ c ∈ cfgs, c.fitDuts.Nodup)
    (tables : _) (h3 : BTA.Fit.fitTracks est planes false kal S' 0 cs1 (out.map fitCand) cfgs = .ok tables) (hc : c ∈ cfgs) (a : Alignment)
    (rows : List (BTA.Fit.Row ℝ W)) (hrows : (c.dut, rows) ∈ tables) (other : BTA.Fit.Row ℝ W → BTA.Efficiency.Row ℝ) (s : Setup ℝ)
    (hex : ValidEdges s.edgesX) (hey : ValidEdges s.edgesY) (G : (ℝ → ℝ → Prop) → Prop)
    (hused' : ∀ (row : Row (Value ℝ)) (p : Int × Nat) (r : BTA.Fit.Row ℝ W), row ∈ out → row.ev = p.1 →
      (out.filter fun x => decide (x.ev = p.1))[p.2]? = some row → Stored kal c row.flag.toNat → r.cand = fitCand row → r.est = est (ownFit c) (fitCand row) c.dut →
      (∀ R, G R → ((Used s (effRow c.dut other r) ∧ R (BTA.Efficiency.Spec.posX s (effRow c.dut other r)) (BTA.Efficiency.Spec.posY s (effRow c.dut other r))) ↔
        Crosses truth a c.dut s.enabled R p)) ∧ (Matched s (effRow c.dut other r) ↔ HasCluster truth (T0 :: others) c.dut p))
    (cs2 : Nat) (hcs2 : cs2 > 0) :
    let tracks := fun P => Set.ncard {p | IsTrack truth T0 p ∧ taken p ∧ Crosses truth a c.dut s.enabled P p}
    let seen := fun P => Set.ncard {p | IsTrack truth T0 p ∧ taken p ∧ Crosses truth a c.dut s.enabled P p ∧
      HasCluster truth (T0 :: others) c.dut p}
    let inside := fun u w => ∃ i j, InBin s.edgesX i u ∧ InBin s.edgesY j w
    (∀ (rest : List (Setup ℝ × List (BTA.Efficiency.Row ℝ))) (os : List (Output ℝ)), BTA.Efficiency.efficiency cs2 ((s, rows.map (effRow c.dut other)) :: rest) = .ok os →
      ∃ o, os.head? = some o ∧
        (∀ i j, let bin := fun u w => InBin s.edgesX i u ∧ InBin s.edgesY j w
          G bin → o.tracks (i, j) = tracks bin ∧ o.hits.withHit (i, j) = seen bin ∧ o.efficiency (i, j) = ratio (seen bin) (tracks bin)) ∧
        (G inside → o.mean = (seen inside : ℝ) / (tracks inside : ℝ))) ∧
    (s.regions = [] → Set.ncard {p | IsTrack truth T0 p} < cs2 → G (fun _ _ => True) → G inside → tracks (fun _ _ => True) = tracks inside →
      (∃ i j, let bin := fun u w => InBin s.edgesX i u ∧ InBin s.edgesY j w
        G bin ∧ s.minimumTrackDensity ≤ tracks bin ∧ seen bin ≠ 0) → ∃ o, BTA.Efficiency.efficiency cs2 [(s, rows.map (effRow c.dut other))] = .ok [o]) := by
  intro tracks seen inside
  have hT : SortedBy BTA.Fit.Cand.event (out.map fitCand) := by
    unfold SortedBy at hsort ⊢
    exact List.pairwise_map.mpr hsort
  have hflag : ∀ t ∈ out.map fitCand, t.flag < 2 ^ 32 := by
    intro t ht
    obtain ⟨row, -, rfl⟩ := List.mem_map.mp ht
    exact row.flag.isLt
  obtain ⟨L, hL1, hL2, hL3⟩ := exists_ranks Row.ev out
  have h57 := BTA.Fit.Props.C57_flags est planes hcut kal S' cs1 hcs1 (out.map fitCand) hT hflag cfgs hfit tables h3 c hc rows hrows
  have hrel : List.Forall₂ (fun (row : Row (Value ℝ)) (r : BTA.Fit.Row ℝ W) => r.cand = fitCand row ∧ r.est = est (ownFit c) (fitCand row) c.dut)
      (out.filter fun row => decide (Stored kal c row.flag.toNat)) rows := by
    have e1 : (out.filter fun row => decide (Stored kal c row.flag.toNat)) = (out.zipIdx.filter fun p => decide (Stored kal c p.1.flag.toNat)).map Prod.fst := by
      conv_lhs => rw [← List.zipIdx_map_fst 0 out]
      rw [List.filter_map]
      rfl
    have e2 : ((out.map fitCand).zipIdx.filter fun p => decide (Stored kal c p.1.flag)) =
        (out.zipIdx.filter fun p => decide (Stored kal c p.1.flag.toNat)).map (Prod.map fitCand id) := by
      rw [List.zipIdx_map, List.filter_map]
      rfl
    rw [e2, List.forall₂_map_left_iff] at h57
    rw [e1, List.forall₂_map_left_iff]
    exact h57.imp fun p r h => ⟨h.1, h.2.1⟩
  have hrsort : SortedBy BTA.Efficiency.Row.event (rows.map (effRow c.dut other)) := by
    have e1 : (rows.map (effRow c.dut other)).map BTA.Efficiency.Row.event = (out.filter fun row => decide (Stored kal c row.flag.toNat)).map Row.ev := by
      rw [List.map_map]
      symm
      rw [← List.forall₂_eq_eq_eq, List.forall₂_map_left_iff, List.forall₂_map_right_iff]
      refine hrel.imp fun row r h => ?_
      show row.ev = r.cand.event
      rw [h.1]
      rfl
    unfold SortedBy at hsort ⊢
    have : ((rows.map (effRow c.dut other)).map BTA.Efficiency.Row.event).Pairwise (· ≤ ·) := by
      rw [e1]
      exact List.pairwise_map.mpr (hsort.filter _)
    exact List.pairwise_map.mp this
  have hLtrack : ∀ p, p ∈ L ↔ IsTrack truth T0 p := by
    intro p
    rw [hL2]
    unfold IsTrack
    by_cases he : ∃ x ∈ T0, p.1 ≤ x.ev
    · rw [hev p.1 he]
      exact ⟨fun h => ⟨he, h⟩, fun h => h.2⟩
    · have : (out.filter fun x => decide (x.ev = p.1)) = [] := by
        rw [List.filter_eq_nil_iff]
        intro row hrow
        rw [decide_eq_true_eq]
        intro h
        exact he (h ▸ hlast row hrow)
      rw [this]
      simp [he]
  -- counting
  have hcount : ∀ (Q : BTA.Efficiency.Row ℝ → Prop) (P : Int × Nat → Prop),
      (∀ (row : Row (Value ℝ)) (p : Int × Nat) (r : BTA.Fit.Row ℝ W), row ∈ out → row.ev = p.1 → (out.filter fun x => decide (x.ev = p.1))[p.2]? = some row →
        Stored kal c row.flag.toNat → r.cand = fitCand row → r.est = est (ownFit c) (fitCand row) c.dut → (Q (effRow c.dut other r) ↔ P p)) →
      number (rows.map (effRow c.dut other)) Q = Set.ncard {p | IsTrack truth T0 p ∧ taken p ∧ P p} := by
    intro Q P hQP
    let mk : Row (Value ℝ) → BTA.Fit.Row ℝ W := fun row => ⟨fitCand row, est (ownFit c) (fitCand row) c.dut, ⟨0, 0, 0⟩⟩
    have s1 : number (rows.map (effRow c.dut other)) Q = number (out.filter fun row => decide (Stored kal c row.flag.toNat)) fun row => Q (effRow c.dut other (mk row)) := by
      rw [number_map]
      symm
      refine number_forall₂ hrel fun row r hmem hr => ?_
      obtain ⟨hmem', hst⟩ := List.mem_filter.mp hmem
      obtain ⟨n, hn'⟩ := List.getElem?_of_mem (show row ∈ out.filter fun x => decide (x.ev = row.ev) from List.mem_filter.mpr ⟨hmem', by simp⟩)
      rw [hQP row (row.ev, n) (mk row) hmem' rfl hn' (of_decide_eq_true hst) rfl rfl, hQP row (row.ev, n) r hmem' rfl hn' (of_decide_eq_true hst) hr.1 hr.2]
    rw [s1, number_filter out (fun row => Stored kal c row.flag.toNat)]
    have s2 : (number out fun row => Stored kal c row.flag.toNat ∧ Q (effRow c.dut other (mk row))) = number L fun p => taken p ∧ P p := by
      refine number_forall₂ hL3 fun row p hmem hr => ?_
      rw [← hstored row p hmem hr.1 hr.2]
      exact and_congr_right fun hst => hQP row p (mk row) hmem hr.1 hr.2 hst rfl rfl
    rw [s2, number_nodup L hL1]
    congr 1
    ext p
    rw [Set.mem_setOf_eq, Set.mem_setOf_eq, hLtrack]
  have hN : ∀ R : ℝ → ℝ → Prop, G R → (number (rows.map (effRow c.dut other)) fun r => Used s r ∧ R (BTA.Efficiency.Spec.posX s r) (BTA.Efficiency.Spec.posY s r)) =
      Set.ncard {p | IsTrack truth T0 p ∧ taken p ∧ Crosses truth a c.dut s.enabled R p} := fun R hR =>
    hcount _ _ fun row p r a1 a2 a3 a4 a5 a6 => (hused' row p r a1 a2 a3 a4 a5 a6).1 R hR
  have hK : ∀ R : ℝ → ℝ → Prop, G R → (number (rows.map (effRow c.dut other)) fun r => Used s r ∧ R (BTA.Efficiency.Spec.posX s r) (BTA.Efficiency.Spec.posY s r) ∧ Matched s r) =
      Set.ncard {p | IsTrack truth T0 p ∧ taken p ∧ Crosses truth a c.dut s.enabled R p ∧ HasCluster truth (T0 :: others) c.dut p} := fun R hR =>
    hcount _ _ fun row p r a1 a2 a3 a4 a5 a6 => by
      obtain ⟨b1, b2⟩ := hused' row p r a1 a2 a3 a4 a5 a6
      rw [← and_assoc, b1 R hR, b2]
  refine ⟨?_, ?_⟩
  · intro rest os hos
    obtain ⟨o, ho, hcor⟩ := BTA.Efficiency.Props.C45_first_dut s (rows.map (effRow c.dut other)) hrsort cs2 hcs2 hex hey rest os hos
    refine ⟨o, ho, ?_, ?_⟩
    · intro i j bin hG
      refine ⟨?_, ?_, ?_⟩
      · rw [hcor.tracks]
        exact hN bin hG
      · rw [hcor.withHit]
        exact hK bin hG
      · rw [hcor.efficiency]
        exact congrArg₂ ratio (hK bin hG) (hN bin hG)
    · intro hG
      rw [hcor.mean]
      exact congrArg₂ (fun x y : Nat => (x : ℝ) / (y : ℝ)) (hK inside hG) (hN inside hG)
  · intro hreg hlen hGt hGi hall hbin
    have hlen' : (rows.map (effRow c.dut other)).length < cs2 := by
      rw [List.length_map, ← hrel.length_eq]
      refine lt_of_le_of_lt (List.length_filter_le _ _) (lt_of_le_of_lt (le_of_eq ?_) hlen)
      rw [hL3.length_eq]
      have := number_nodup L hL1 fun _ => True
      unfold number at this
      simp only [decide_true, List.filter_true] at this
      rw [this]
      congr 1
      ext p
      simp [hLtrack]
    refine BTA.Efficiency.Props.C189_short s hreg _ hrsort cs2 hlen' hex hey ?_ ?_
    · have h1 := hN (fun _ _ => True) hGt
      have h2 := hN inside hGi
      intro r hr hu
      by_contra hno
      have hlt : (number (rows.map (effRow c.dut other)) fun r => Used s r ∧ inside (BTA.Efficiency.Spec.posX s r) (BTA.Efficiency.Spec.posY s r)) <
          number (rows.map (effRow c.dut other)) fun r => Used s r ∧ True := number_lt _ _ _ (fun r h => ⟨h.1, trivial⟩) r hr ⟨hu, trivial⟩ fun h => hno h.2
      rw [h1, h2] at hlt
      exact absurd hall.symm (ne_of_lt hlt)
    · obtain ⟨i, j, hG, hb1, hb2⟩ := hbin
      refine ⟨i, j, ?_, ?_⟩
      · have := hN (fun u w => InBin s.edgesX i u ∧ InBin s.edgesY j w) hG
        rw [show (number (rows.map (effRow c.dut other)) fun r => Used s r ∧ TrackIn s i j r) = _ from this]
        exact hb1
      · rw [← BTA.Efficiency.Props.number_pos_iff, Nat.pos_iff_ne_zero]
        have := hK (fun u w => InBin s.edgesX i u ∧ InBin s.edgesY j w) hG
        rw [show (number (rows.map (effRow c.dut other)) fun r => Used s r ∧ TrackIn s i j r ∧ Matched s r) = _ from this]
        exact hb2

/-- C188: the complete chain `merge_cluster_data`, `find_tracks`, `fit_tracks` (straight line fit), `calculate_efficiency`. -/
theorem C188_efficiency (duts : List (Bool × Pixels ℝ)) (g : Config) (beam : Option Alignment) (hb : SamePlanes beam g.duts) (hn : g.duts.length = duts.length) (h10 : duts.length ≤ 10) (zs extrap : List Nat)
    (hz : zs.Perm (List.range g.duts.length)) (f : Nat) (ds : List Nat) (hf : zs = f :: ds) (S : Sampling) (cs : Nat) (hcs : 0 < cs) (T0 : List (Clust ℝ)) (others : List (List (Clust ℝ)))
    (hd : duts.length = others.length + 1) (hs0 : SortedBy Clust.ev T0) (hs : ∀ T ∈ others, SortedBy Clust.ev T)
    (hm : ∀ T ∈ T0 :: others, ∀ e, BTA.Spec.multiplicity Clust.ev T e < cs) (hsl : g.slices ≠ 0) (hsvd : Svd g) (hcv : Converges g)
    (truth : Int → Truth)
    (hI : ∀ e, (∃ x ∈ T0, e ≤ x.ev) → Straight beam duts g.duts (eventOf (T0 :: others) e) f (truth e))
    (planes : List (BTA.Fit.Plane ℝ)) (hcut : ∀ P ∈ planes, ValidCuts P) (S' : Sampling) (cs1 : Nat) (hcs1 : cs ≤ cs1) (cfgs : List DutCfg) (hnd : (cfgs.map DutCfg.dut).Nodup)
    (hfit : ∀ c ∈ cfgs, c.fitDuts.Nodup) (hreq : ∀ c ∈ cfgs, 2 ≤ required c ∧ required c ≤ (ownFit c).card) :
    ∃ merged out tables, mergeClusterData Clust.ev T0 others cs = .ok merged ∧
      findFile (telescopeSetting beam g.duts zs extrap) S 0 cs (merged.map (mergedRow duts)) = some (out, none) ∧
      BTA.Fit.fitTracks (lineEst g) planes false false S' 0 cs1 (out.map fitCand) cfgs = .ok tables ∧
      ∀ c ∈ cfgs, (∀ rows : List (Row (Value ℝ)), (∀ row ∈ rows, row ∈ out ∧ Fitted false c row.flag.toNat) → ∃ ts, fitChunk (lineConfig g (ownFit c)) (rows.map candOf) = .ok ts) ∧
        (∃ rows, (c.dut, rows) ∈ tables) ∧
        ∀ a, g.duts[c.dut]? = some a → ∀ rows, (c.dut, rows) ∈ tables →
          ∀ (other : BTA.Fit.Row ℝ (Option Vec3) → BTA.Efficiency.Row ℝ) (s : Setup ℝ), s.offset = (0, 0) → ValidEdges s.edgesX → ValidEdges s.edgesY →
            (∀ x, s.cut.1 = some x → 0 ≤ x) → (∀ y, s.cut.2 = some y → 0 ≤ y) →
            let tracks := fun P => Set.ncard {p | IsTrack truth T0 p ∧ Taken truth (T0 :: others) c p ∧ Crosses truth a c.dut s.enabled P p}
            let seen := fun P => Set.ncard {p | IsTrack truth T0 p ∧ Taken truth (T0 :: others) c p ∧ Crosses truth a c.dut s.enabled P p ∧
              HasCluster truth (T0 :: others) c.dut p}
            let inside := fun u w => ∃ i j, InBin s.edgesX i u ∧ InBin s.edgesY j w
            ∀ cs2 > 0,
              (∀ (rest : List (Setup ℝ × List (BTA.Efficiency.Row ℝ))) (os : List (Output ℝ)), BTA.Efficiency.efficiency cs2 ((s, rows.map (effRow c.dut other)) :: rest) = .ok os →
                ∃ o, os.head? = some o ∧
                  (∀ i j, let bin := fun u w => InBin s.edgesX i u ∧ InBin s.edgesY j w
                    o.tracks (i, j) = tracks bin ∧ o.hits.withHit (i, j) = seen bin ∧ o.efficiency (i, j) = ratio (seen bin) (tracks bin)) ∧
                  o.mean = (seen inside : ℝ) / (tracks inside : ℝ)) ∧
              (s.regions = [] → Set.ncard {p | IsTrack truth T0 p} < cs2 → tracks (fun _ _ => True) = tracks inside →
                (∃ i j, let bin := fun u w => InBin s.edgesX i u ∧ InBin s.edgesY j w
                  s.minimumTrackDensity ≤ tracks bin ∧ seen bin ≠ 0) → ∃ o, BTA.Efficiency.efficiency cs2 [(s, rows.map (effRow c.dut other))] = .ok [o]) := by
  obtain ⟨merged, out, h1, h2, hlast, hev, htr⟩ := C186_tracks duts g beam hb hn h10 zs extrap hz f ds hf S cs hcs T0 others hd hs0 hs hm hsl hsvd hcv truth hI
  obtain ⟨hsort, hmult, -⟩ := out_facts duts g.duts beam hn h10 zs extrap hz S cs hcs T0 others hd hs0 hs hm merged out h1 h2
  have hT : SortedBy BTA.Fit.Cand.event (out.map fitCand) := by
    unfold SortedBy at hsort ⊢
    exact List.pairwise_map.mpr hsort
  have hflag : ∀ t ∈ out.map fitCand, t.flag < 2 ^ 32 := by
    intro t ht
    obtain ⟨row, -, rfl⟩ := List.mem_map.mp ht
    exact row.flag.isLt
  have hmul : ∀ e, BTA.Spec.multiplicity BTA.Fit.Cand.event (out.map fitCand) e < cs1 := by
    intro e
    refine lt_of_lt_of_le ?_ hcs1
    have : BTA.Spec.multiplicity BTA.Fit.Cand.event (out.map fitCand) e = BTA.Spec.multiplicity Row.ev out e := by
      unfold BTA.Spec.multiplicity
      rw [List.filter_map, List.length_map]
      rfl
    rw [this]
    exact hmult e
  obtain ⟨tables, h3, h4⟩ := BTA.Fit.Props.C24_tracks_table (lineEst g) planes hcut false S' cs1 (out.map fitCand) hT hflag hmul cfgs hnd hfit hreq
  -- the rows and the true tracks
  have hbit : ∀ (row : Row (Value ℝ)) (p : Int × Nat), row ∈ out → row.ev = p.1 → (out.filter fun x => decide (x.ev = p.1))[p.2]? = some row → ∀ d,
      (row.flag.toNat.testBit d = true ↔ HasCluster truth (T0 :: others) d p) := by
    rintro row ⟨e, r⟩ hrow he hr d
    dsimp only at he hr
    subst he
    have hlast' := hlast row hrow
    by_cases hd32 : d < 32
    · rw [← BitVec.getLsbD]
      exact C185_flag duts g.duts beam hb hn h10 zs extrap hz f ds hf S cs hcs T0 others hd hs0 hs hm merged out h1 h2 row.ev (truth row.ev) hlast' (hI _ hlast') r row hr d hd32
    · have e1 : row.flag.toNat.testBit d = false := by
        rw [← BitVec.getLsbD]
        exact BitVec.getLsbD_of_ge _ _ (by omega)
      have e2 : eventOf (T0 :: others) row.ev d = [] := by
        unfold eventOf
        rw [List.getD_eq_getElem?_getD, List.getElem?_eq_none (by simp only [List.length_cons]; omega)]
        rfl
      rw [e1]
      unfold HasCluster
      rw [e2]
      simp
  have hcandlt : ∀ (row : Row (Value ℝ)), row ∈ out → ∀ d, row.flag.toNat.testBit d = true → d < g.duts.length ∧ (candOf row d).isSome = true := by
    intro row hrow d hbit'
    have hd32 : d < 32 := by
      by_contra h
      rw [← BitVec.getLsbD, BitVec.getLsbD_of_ge _ _ (by omega)] at hbit'
      cases hbit'
    rw [← BitVec.getLsbD] at hbit'
    obtain ⟨-, -, hfl⟩ := out_facts duts g.duts beam hn h10 zs extrap hz S cs hcs T0 others hd hs0 hs hm merged out h1 h2
    have := (hfl row hrow d hd32).mp hbit'
    exact ⟨by omega, this.2⟩
  have hfits : ∀ c, ∀ row ∈ out, 2 ≤ hitsIn row.flag.toNat (ownFit c) → FitHits (lineConfig g (ownFit c)) (candOf row) := by
    intro c row hrow h
    unfold hitsIn at h
    obtain ⟨d, hd1, d', hd2, hne⟩ := Finset.one_lt_card.mp (lt_of_lt_of_le one_lt_two h)
    rw [Finset.mem_filter] at hd1 hd2
    obtain ⟨a1, a2⟩ := hcandlt row hrow d hd1.2
    obtain ⟨b1, b2⟩ := hcandlt row hrow d' hd2.2
    refine ⟨d, ?_, d', ?_, hne, a2, b2⟩
    · exact List.mem_filter.mpr ⟨List.mem_range.mpr a1, decide_eq_true hd1.1⟩
    · exact List.mem_filter.mpr ⟨List.mem_range.mpr b1, decide_eq_true hd2.1⟩
  have hin : ∀ c : DutCfg, ∀ d ∈ (lineConfig g (ownFit c)).fitDuts, d < g.duts.length := fun c d hd' => List.mem_range.mp (List.mem_filter.mp hd').1
  refine ⟨merged, out, tables, h1, h2, h3, fun c hc => ⟨?_, ?_, ?_⟩⟩
  · intro rows hrows
    obtain ⟨ts, hts, -⟩ := htr (lineConfig g (ownFit c)).fitDuts (hin c) rows (fun row hrow => ⟨(hrows row hrow).1, hfits c row (hrows row hrow).1 (hrows row hrow).2⟩)
    exact ⟨ts, hts⟩
  · obtain ⟨rows, hrows, -⟩ := h4 c hc
    exact ⟨rows, hrows⟩
  intro a ha rows hrows other s hoff hex hey hcx hcy tracks seen inside cs2 hcs2
  have hdl : c.dut < duts.length := by
    rw [← hn]
    exact (List.getElem?_eq_some_iff.mp ha).1
  -- a stored row of the table
  have hpoint : ∀ (row : Row (Value ℝ)) (p : Int × Nat) (r : BTA.Fit.Row ℝ (Option Vec3)), row ∈ out → row.ev = p.1 → (out.filter fun x => decide (x.ev = p.1))[p.2]? = some row →
      Stored false c row.flag.toNat → r.cand = fitCand row → r.est = lineEst g (ownFit c) (fitCand row) c.dut →
      ∃ u w, AtLocal a ((truth p.1).at' p.2 c.dut) u w ∧ (effRow c.dut other r).ix = u ∧ (effRow c.dut other r).iy = w ∧
        (Matched s (effRow c.dut other r) ↔ HasCluster truth (T0 :: others) c.dut p) := by
    rintro row ⟨e, n⟩ r hrow he hr hst hcand hest
    dsimp only at he hr ⊢
    subst he
    have hlast' := hlast row hrow
    obtain ⟨-, hcl⟩ := hev row.ev hlast'
    have htwo : 2 ≤ hitsIn row.flag.toNat (ownFit c) := le_trans (hreq c hc).1 hst.2.1
    obtain ⟨ts, hts, hlen, hall⟩ := htr (lineConfig g (ownFit c)).fitDuts (hin c) [row] (fun row' h => by
      rw [List.mem_singleton] at h
      subst h
      exact ⟨hrow, hfits c _ hrow htwo⟩)
    obtain ⟨t, rfl⟩ := List.length_eq_one_iff.mp hlen
    obtain ⟨hm', hat, -⟩ := hall 0 row t rfl rfl n hr
    obtain ⟨e, he, hloc⟩ := hat c.dut a ha
    have hz0 : ∀ d < g.duts.length, ∀ h, candOf row d = some h → h.z = 0 := by
      intro d hd' h hh
      rw [hcl n row hr d _ (List.getElem?_eq_getElem (show d < duts.length by omega)), Option.map_eq_some_iff] at hh
      obtain ⟨cl, -, rfl⟩ := hh
      exact clusterHit_z _ cl
    have hle := lineEst_fit g hsl (ownFit c) row hz0 [t] t hts rfl c.dut e he
    rw [hle] at hest
    have hix : (effRow c.dut other r).ix = e.pos 0 := by
      show r.est.x.getD 0 = _
      rw [hest]
      rfl
    have hiy : (effRow c.dut other r).iy = e.pos 1 := by
      show r.est.y.getD 0 = _
      rw [hest]
      rfl
    refine ⟨e.pos 0, e.pos 1, hloc, hix, hiy, ?_⟩
    unfold Matched HasCluster
    rw [effRow_hit _ _ _ row hcand, hcl n row hr c.dut _ (List.getElem?_eq_getElem hdl)]
    dsimp only
    constructor
    · rintro ⟨h, hh, -⟩
      rw [Option.map_eq_some_iff] at hh
      obtain ⟨x, hx, -⟩ := hh
      rw [Option.map_eq_some_iff] at hx
      obtain ⟨cl, hcl', -⟩ := hx
      exact (List.getElem?_eq_some_iff.mp hcl').1
    · intro hlt
      have hmeas := (hI row.ev hlast').measured c.dut a _ ha (List.getElem?_eq_getElem hdl) n hm' _ (List.getElem?_eq_getElem hlt)
      obtain ⟨e0, e1⟩ := atLocal_inj _ _ _ _ _ _ hloc hmeas
      rw [List.getElem?_eq_getElem hlt]
      refine ⟨_, rfl, ?_⟩
      have hp0 : BTA.Efficiency.Spec.posX s (effRow c.dut other r) = e.pos 0 := by
        unfold BTA.Efficiency.Spec.posX
        rw [hix, hoff, add_zero]
      have hp1 : BTA.Efficiency.Spec.posY s (effRow c.dut other r) = e.pos 1 := by
        unfold BTA.Efficiency.Spec.posY
        rw [hiy, hoff, add_zero]
      rw [hp0, hp1, e0, e1]
      dsimp only
      rw [sub_self, sub_self]
      exact close_zero s hcx hcy
  have hused : ∀ (R : ℝ → ℝ → Prop) (row : Row (Value ℝ)) (p : Int × Nat) (r : BTA.Fit.Row ℝ (Option Vec3)), row ∈ out → row.ev = p.1 →
      (out.filter fun x => decide (x.ev = p.1))[p.2]? = some row → Stored false c row.flag.toNat → r.cand = fitCand row → r.est = lineEst g (ownFit c) (fitCand row) c.dut →
      ((Used s (effRow c.dut other r) ∧ R (BTA.Efficiency.Spec.posX s (effRow c.dut other r)) (BTA.Efficiency.Spec.posY s (effRow c.dut other r))) ↔
        Crosses truth a c.dut s.enabled R p) ∧ (Matched s (effRow c.dut other r) ↔ HasCluster truth (T0 :: others) c.dut p) := by
    intro R row p r hrow he hr hst hcand hest
    obtain ⟨u, w, hloc, hix, hiy, hmt⟩ := hpoint row p r hrow he hr hst hcand hest
    refine ⟨?_, hmt⟩
    have hp0 : BTA.Efficiency.Spec.posX s (effRow c.dut other r) = u := by
      unfold BTA.Efficiency.Spec.posX
      rw [hix, hoff, add_zero]
    have hp1 : BTA.Efficiency.Spec.posY s (effRow c.dut other r) = w := by
      unfold BTA.Efficiency.Spec.posY
      rw [hiy, hoff, add_zero]
    unfold Used Crosses
    rw [hp0, hp1]
    constructor
    · exact fun h => ⟨u, w, hloc, h.1, h.2⟩
    · rintro ⟨u', w', hloc', h⟩
      obtain ⟨rfl, rfl⟩ := atLocal_inj _ _ _ _ _ _ hloc hloc'
      exact h
  obtain ⟨q1, q2⟩ := efficiency_core (lineEst g) T0 others truth out hsort hlast (fun e he => (hev e he).1) false c (Taken truth (T0 :: others) c) (fun row p a1 a2 a3 => stored_taken T0 others truth c row p (hbit row p a1 a2 a3)) planes hcut S' cs1 (by omega) cfgs hfit tables h3 hc a rows hrows other s hex hey
    (fun _ => True) (fun row p r a1 a2 a3 a4 a5 a6 => ⟨fun R _ => (hused R row p r a1 a2 a3 a4 a5 a6).1, (hused (fun _ _ => True) row p r a1 a2 a3 a4 a5 a6).2⟩) cs2 hcs2
  refine ⟨fun rest os hos => ?_, fun hreg hlen hall ⟨i, j, hbin⟩ => q2 hreg hlen trivial trivial hall ⟨i, j, trivial, hbin⟩⟩
  obtain ⟨o, ho, ho1, ho2⟩ := q1 rest os hos
  exact ⟨o, ho, fun i j => ho1 i j trivial, ho2 trivial⟩

/-! ### Example: the data of Verif.Props.Chain; DUT 1 has seen one of the two tracks, which are fitted with DUT 0 and DUT 2. -/

theorem exIsTrack (p : Int × Nat) : IsTrack exTruth [exClust 0, exClust 10] p ↔ p = (0, 0) ∨ p = (0, 1) := by
  obtain ⟨e, r⟩ := p
  unfold IsTrack exTruth
  simp only [List.mem_cons, List.not_mem_nil, or_false, Prod.mk.injEq]
  constructor
  · rintro ⟨-, h⟩
    by_cases he : e = 0
    · rw [if_pos he] at h
      omega
    · rw [if_neg he] at h
      omega
  · rintro (⟨rfl, rfl⟩ | ⟨rfl, rfl⟩) <;> exact ⟨⟨exClust 0, .inl rfl, le_refl _⟩, by simp⟩

theorem exHas (r d : Nat) : HasCluster exTruth exTables d (0, r) ↔ (if d = 2 then 1 - r else r) < (exTables.getD d []).length := by
  unfold HasCluster
  dsimp only
  rw [exEvent, if_pos rfl]
  rfl

theorem exTaken (r : Nat) (hr : r < 2) : Taken exTruth exTables ⟨1, [0, 2], [], false, none⟩ (0, r) := by
  classical
  refine ⟨(fun d hd => absurd hd List.not_mem_nil), ?_⟩
  have : ((ownFit ⟨1, [0, 2], [], false, none⟩).filter fun d => HasCluster exTruth exTables d (0, r)) = ownFit ⟨1, [0, 2], [], false, none⟩ := by
    apply Finset.filter_true_of_mem
    intro d hd
    have hd' : d = 0 ∨ d = 2 := by simpa [ownFit] using hd
    rw [exHas]
    rcases hd' with rfl | rfl
    · simpa [exTables] using hr
    · simp [exTables]
  rw [this]
  decide

theorem exCrosses (P : ℝ → ℝ → Prop) (r : Nat) : Crosses exTruth ⟨0, 0, 1, 0, 0, 0⟩ 1 (fun _ _ => true) P (0, r) ↔ P (if r = 0 then 0 else 10) 0 := by
  have hloc : AtLocal ⟨0, 0, 1, 0, 0, 0⟩ ((exTruth 0).at' r 1) (if r = 0 then 0 else 10) 0 := by
    unfold AtLocal
    dsimp only
    rw [BTA.Line.Props.rotation_none]
    ext i
    fin_cases i <;> simp [Truth.at', exTruth]
  constructor
  · rintro ⟨u, w, h, -, hP⟩
    obtain ⟨rfl, rfl⟩ := atLocal_inj _ _ _ _ _ _ h hloc
    exact hP
  · intro h
    exact ⟨_, _, hloc, rfl, h⟩

/-- One bin for the complete sensor. -/
noncomputable def exSetup : Setup ℝ := ⟨[-5, 15], [-1, 1], (1, 1), (none, some 1), (0, 0), fun _ _ => true, fun _ _ => 0, 1, [], 1, Real.sqrt⟩

theorem exInBin (x : ℝ) (hx : x = 0 ∨ x = 10) : InBin exSetup.edgesX 0 x ∧ InBin exSetup.edgesY 0 0 := by
  refine ⟨⟨-5, 15, rfl, rfl, ?_, .inl ?_⟩, ⟨-1, 1, rfl, rfl, ?_, .inl ?_⟩⟩ <;> rcases hx with rfl | rfl <;> norm_num

theorem exTracks (P : ℝ → ℝ → Prop) (h0 : P 0 0) (h1 : P 10 0) :
    Set.ncard {p | IsTrack exTruth [exClust 0, exClust 10] p ∧ Taken exTruth exTables ⟨1, [0, 2], [], false, none⟩ p ∧ Crosses exTruth ⟨0, 0, 1, 0, 0, 0⟩ 1 exSetup.enabled P p} = 2 := by
  have : {p | IsTrack exTruth [exClust 0, exClust 10] p ∧ Taken exTruth exTables ⟨1, [0, 2], [], false, none⟩ p ∧ Crosses exTruth ⟨0, 0, 1, 0, 0, 0⟩ 1 exSetup.enabled P p} = {((0 : Int), 0), (0, 1)} := by
    ext p
    simp only [Set.mem_setOf_eq, Set.mem_insert_iff, Set.mem_singleton_iff]
    rw [exIsTrack]
    constructor
    · exact fun h => h.1
    · intro h
      refine ⟨h, ?_⟩
      rcases h with rfl | rfl
      · exact ⟨exTaken 0 (by decide), (exCrosses P 0).mpr h0⟩
      · exact ⟨exTaken 1 (by decide), (exCrosses P 1).mpr h1⟩
  rw [this, Set.ncard_pair (by decide)]

theorem exSeen (P : ℝ → ℝ → Prop) (h0 : P 0 0) :
    Set.ncard {p | IsTrack exTruth [exClust 0, exClust 10] p ∧ Taken exTruth exTables ⟨1, [0, 2], [], false, none⟩ p ∧ Crosses exTruth ⟨0, 0, 1, 0, 0, 0⟩ 1 exSetup.enabled P p ∧
      HasCluster exTruth exTables 1 p} = 1 := by
  have : {p | IsTrack exTruth [exClust 0, exClust 10] p ∧ Taken exTruth exTables ⟨1, [0, 2], [], false, none⟩ p ∧ Crosses exTruth ⟨0, 0, 1, 0, 0, 0⟩ 1 exSetup.enabled P p ∧
      HasCluster exTruth exTables 1 p} = {((0 : Int), 0)} := by
    ext p
    simp only [Set.mem_setOf_eq, Set.mem_singleton_iff]
    rw [exIsTrack]
    constructor
    · rintro ⟨rfl | rfl, -, -, h⟩
      · rfl
      · rw [exHas] at h
        simp [exTables] at h
    · rintro rfl
      exact ⟨.inl rfl, exTaken 0 (by decide), (exCrosses P 0).mpr h0, by rw [exHas]; simp [exTables]⟩
  rw [this, Set.ncard_singleton]

/-- C188: `calculate_efficiency` gives an efficiency of 50 % for DUT 1. -/
example (S S' : Sampling) (other : BTA.Fit.Row ℝ (Option Vec3) → BTA.Efficiency.Row ℝ) : ∃ (g : Config) (merged : _) (out : List (Row (Value ℝ))) (tables : _)
    (rows : List (BTA.Fit.Row ℝ (Option Vec3))) (o : Output ℝ),
    mergeClusterData Clust.ev [exClust 0, exClust 10] [[exClust 0], [exClust 10, exClust 0]] 10 = .ok merged ∧
    findFile (telescopeSetting exBeam g.duts [0, 1, 2] [0, 1, 2]) S 0 10 (merged.map (mergedRow exDuts)) = some (out, none) ∧
    BTA.Fit.fitTracks (lineEst g) [] false false S' 0 10 (out.map fitCand) [⟨1, [0, 2], [], false, none⟩] = .ok tables ∧ (1, rows) ∈ tables ∧
    BTA.Efficiency.efficiency 10 [(exSetup, rows.map (effRow 1 other))] = .ok [o] ∧ o.efficiency (0, 0) = some 50 ∧ o.mean = 1 / 2 := by
  obtain ⟨svd0, h0⟩ := BTA.AlignTel.exists_svd
  let g : Config := ⟨exAls, [], fun _ => (0, 0), fun rows => some (svd0 rows), 4, fun _ => 0⟩
  have hT : ∀ T ∈ exTables, ∀ c ∈ T, c.ev = 0 := by
    intro T hT c hc
    simp only [exTables, List.mem_cons, List.not_mem_nil, or_false] at hT
    rcases hT with rfl | rfl | rfl <;> simp only [List.mem_cons, List.not_mem_nil, or_false] at hc
    · rcases hc with rfl | rfl <;> rfl
    · subst hc; rfl
    · rcases hc with rfl | rfl <;> rfl
  have hsorted : ∀ T ∈ exTables, SortedBy Clust.ev T := by
    intro T hT'
    unfold SortedBy
    apply List.pairwise_of_forall_mem_list
    intro a ha b hb
    rw [hT T hT' a ha, hT T hT' b hb]
  have hex : ValidEdges exSetup.edgesX := ⟨le_refl _, by simp [exSetup] <;> norm_num⟩
  have hey : ValidEdges exSetup.edgesY := ⟨le_refl _, by simp [exSetup] <;> norm_num⟩
  obtain ⟨merged, out, tables, h1, h2, h3, h4⟩ := C188_efficiency exDuts g exBeam exPlanes rfl (by decide) [0, 1, 2] [0, 1, 2] (show [0, 1, 2].Perm (List.range 3) by decide) 0 [1, 2] rfl S 10 (by decide)
    [exClust 0, exClust 10] [[exClust 0], [exClust 10, exClust 0]] rfl (hsorted _ (by simp [exTables])) (fun T h => hsorted T (by simp [exTables] at h ⊢; tauto))
    (by
      intro T h e
      refine lt_of_le_of_lt (List.length_filter_le _ _) ?_
      simp only [List.mem_cons, List.not_mem_nil, or_false] at h
      rcases h with rfl | rfl | rfl <;> decide)
    (show 4 ≠ 0 by decide) (by
      intro rows v hv
      rw [← Option.some.inj hv]
      exact h0 rows) (fun _ => rfl) exTruth (fun e _ => exStraight e) [] (fun P hP => by cases hP) S' 10 (le_refl _) [⟨1, [0, 2], [], false, none⟩] (by decide) (by decide) (by decide)
  obtain ⟨-, ⟨rows, hrows⟩, h5⟩ := h4 _ List.mem_cons_self
  obtain ⟨h6, h7⟩ := h5 ⟨0, 0, 1, 0, 0, 0⟩ rfl rows hrows other exSetup rfl hex hey (fun x hx => by cases hx) (fun y hy => by obtain rfl := Option.some.inj hy; norm_num) 10 (by decide)
  have hbin0 : InBin exSetup.edgesX 0 0 ∧ InBin exSetup.edgesY 0 0 := exInBin 0 (.inl rfl)
  have hbin1 : InBin exSetup.edgesX 0 10 ∧ InBin exSetup.edgesY 0 0 := exInBin 10 (.inr rfl)
  have n0 := exTracks (fun _ _ => True) trivial trivial
  have n1 := exTracks (fun u w => ∃ i j, InBin exSetup.edgesX i u ∧ InBin exSetup.edgesY j w) ⟨0, 0, hbin0⟩ ⟨0, 0, hbin1⟩
  have n2 := exTracks (fun u w => InBin exSetup.edgesX 0 u ∧ InBin exSetup.edgesY 0 w) hbin0 hbin1
  have k1 := exSeen (fun u w => ∃ i j, InBin exSetup.edgesX i u ∧ InBin exSetup.edgesY j w) ⟨0, 0, hbin0⟩
  have k2 := exSeen (fun u w => InBin exSetup.edgesX 0 u ∧ InBin exSetup.edgesY 0 w) hbin0
  obtain ⟨o, ho⟩ := h7 rfl (by
    have : {p | IsTrack exTruth [exClust 0, exClust 10] p} = {((0 : Int), 0), (0, 1)} := by
      ext p
      exact exIsTrack p
    rw [this, Set.ncard_pair (by decide)]
    decide) (n0.trans n1.symm) ⟨0, 0, by
      refine ⟨?_, ?_⟩
      · exact le_trans (show (1 : ℝ) ≤ ((2 : Nat) : ℝ) by norm_num) (le_of_eq (congrArg Nat.cast n2.symm))
      · exact fun h => absurd (k2.symm.trans h) (by decide)⟩
  obtain ⟨o', ho', h8, h9⟩ := h6 [] [o] ho
  obtain rfl := Option.some.inj ho'
  refine ⟨g, merged, out, tables, rows, o, h1, h2, h3, hrows, ho, ?_, ?_⟩
  · exact (h8 0 0).2.2.trans ((congrArg₂ ratio k2 n2).trans (by unfold ratio; norm_num))
  · exact h9.trans ((congrArg₂ (fun x y : Nat => (x : ℝ) / (y : ℝ)) k1 n1).trans (by norm_num))

end BTA.Chain.Props
