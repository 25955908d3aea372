import Verif.Spec.Efficiency
import Verif.Lemmas.Binning
import Verif.Props.ChunkReader
import Mathlib.Tactic.Positivity

/-! Lemmas on `calculate_efficiency`. -/

namespace BTA.Efficiency
open BTA.Binning BTA.Spec Spec

variable {K : Type} [Field K] [LinearOrder K]

theorem prepare_append (s : Setup K) (a b : List (Row K)) : prepare s (a ++ b) = prepare s a ++ prepare s b := by
  simp [prepare]

/-! ### Rows of the table -/

/-- The row with the shifted intersection. -/
def shifted (s : Setup K) (r : Row K) : Row K := { r with ix := posX s r, iy := posY s r }

theorem values_prepare (s : Setup K) (T : List (Row K)) (P : Row K → Bool) (f g : Row K → K) (Q : Row K → Prop)
    (h : ∀ r, Used s r → ((P (shifted s r) = true ↔ Q r) ∧ (Q r → f (shifted s r) = g r))) :
    ((prepare s T).filter P).map f = valuesOf T (fun r => Used s r ∧ Q r) g := by
  classical
  unfold valuesOf
  induction T with
  | nil => simp [prepare]
  | cons t r ih =>
    have hcons : prepare s (t :: r) = prepare s [t] ++ prepare s r := prepare_append s [t] r
    rw [hcons, List.filter_append, List.map_append, ih, List.filter_cons]
    by_cases hu : Used s t
    · obtain ⟨h1, h2⟩ := h t hu
      have hp : prepare s [t] = [shifted s t] := by
        have : s.enabled (t.ix + s.offset.1) (t.iy + s.offset.2) = true := hu
        simp [prepare, this, shifted, posX, posY]
      rw [hp]
      by_cases hq : Q t
      · simp [h1.mpr hq, hu, hq, h2 hq]
      · have : P (shifted s t) = false := by
          cases hp : P (shifted s t)
          · rfl
          · exact absurd (h1.mp hp) hq
        simp [this, hq]
    · have hp : prepare s [t] = [] := by
        have : ¬ s.enabled (t.ix + s.offset.1) (t.iy + s.offset.2) = true := hu
        simp [prepare, this]
      rw [hp]
      simp [hu]

theorem number_prepare (s : Setup K) (T : List (Row K)) (P : Row K → Bool) (Q : Row K → Prop)
    (h : ∀ r, Used s r → (P (shifted s r) = true ↔ Q r)) :
    ((prepare s T).filter P).length = number T (fun r => Used s r ∧ Q r) := by
  classical
  have h := values_prepare s T P (fun _ => 0) (fun _ => 0) Q fun r hu => ⟨h r hu, fun _ => rfl⟩
  have := congrArg List.length h
  simpa [valuesOf, number] using this

theorem ellipseTerm_eq (d : K) (cut : Option K) : ellipseTerm d cut = scaled d cut ^ 2 := by
  cases cut with
  | none => simp [ellipseTerm, scaled]
  | some c => simp only [ellipseTerm, scaled, Option.elim_some]; rw [div_pow, sq, sq]

theorem bigCut_iff (cut : Option K) (pixel : K) : bigCut cut pixel = true ↔ LargeCut cut pixel := by
  cases cut <;> simp [bigCut, LargeCut]

theorem boxTerm_iff (d : K) (cut : Option K) : boxTerm d cut = true ↔ ∀ c, cut = some c → |d| ≤ c := by
  cases cut <;> simp [boxTerm]

theorem validHit_iff (s : Setup K) (r : Row K) : validHit s (shifted s r) = true ↔ Matched s r := by
  unfold validHit Matched
  show (match r.hit with
    | none => false
    | some h => _) = true ↔ _
  cases hh : r.hit with
  | none => simp
  | some h =>
    simp only [Option.some.injEq, exists_eq_left', residual, shifted, Close]
    by_cases hb : bigCut s.cut.1 s.pixelSize.1 && bigCut s.cut.2 s.pixelSize.2
    · rw [if_pos hb]
      rw [Bool.and_eq_true, bigCut_iff, bigCut_iff] at hb
      simp [hb, ellipseTerm_eq]
    · rw [if_neg hb]
      rw [Bool.and_eq_true, bigCut_iff, bigCut_iff] at hb
      rw [Bool.and_eq_true, boxTerm_iff, boxTerm_iff]
      constructor
      · intro h; exact .inr ⟨hb, h⟩
      · rintro (h | h)
        · exact absurd ⟨h.1, h.2.1⟩ hb
        · exact h.2

theorem inRegion_iff (s : Setup K) (g : Region K) (r : Row K) : inRegion g (shifted s r) = true ↔ InRegion s g r := by
  unfold inRegion InRegion shifted
  simp only [Bool.and_eq_true, decide_eq_true_eq]
  tauto

theorem trackBin_iff (s : Setup K) (hx : ValidEdges s.edgesX) (hy : ValidEdges s.edgesY) (r : Row K) (i j : Nat) :
    trackBin s (shifted s r) = some (i, j) ↔ TrackIn s i j r := by
  unfold trackBin TrackIn
  rw [binIndex2_iff hx hy]; rfl

theorem hitBin_iff (s : Setup K) (hx : ValidEdges s.edgesX) (hy : ValidEdges s.edgesY) (r : Row K) (i j : Nat) :
    hitBin s (shifted s r) = some (i, j) ↔ HitIn s i j r := by
  unfold hitBin HitIn shifted
  rw [Option.bind_eq_some_iff]
  simp only [binIndex2_iff hx hy]

theorem value_eq (s : Setup K) (q : Quantity) (r : Row K) (h : Matched s r) : value s q (shifted s r) = quantity s q r := by
  obtain ⟨h, hh, -⟩ := h
  cases q <;> simp [value, quantity, shifted, residual, hh, sq]

/-! ### Accumulation -/

section
variable [IsStrictOrderedRing K]

theorem measure_append (s : Setup K) (a b : List (Row K)) : measure s (a ++ b) = (measure s a).add (measure s b) := by
  simp only [measure, Hits.add, Hits.mk.injEq, true_and]
  refine ⟨?_, ?_, ?_⟩
  · funext b; rw [counts_append]
  · funext b; rw [counts_append]
  · funext q b; rw [average_binMean]

theorem measure_nil_add (s : Setup K) (a b : List (Row K)) (h : b = []) : measure s (a ++ b) = measure s a := by
  rw [h, List.append_nil]

/-- State after the rows `d` (prepared) have been processed and the histograms have been created. -/
structure Filled (s : Setup K) (d : List (Row K)) (st : State K) : Prop where
  first : st.first = false
  tracks : st.scope.tracks = some (s.shape, counts (trackBin s) d)
  hits : st.scope.hits = some (measure s (d.filter (validHit s)))

omit [IsStrictOrderedRing K] in
/-- The parts of a step. -/
theorem stepChunk_ok {s : Setup K} {c : List (Row K)} {st st' : State K} (h : stepChunk s c st = .ok st') :
    updateRegions s (prepare s c) s.regions st.regions = .ok st'.regions ∧
    updateScope s st.first (prepare s c) st.scope = .ok st'.scope ∧
    chunkEfficiency s (prepare s c) st'.scope (st'.regions.map RegionState.chunk) st.chunks = .ok st'.chunks ∧
    st'.first = false ∧ st'.pixelTracks = (fun p => st.pixelTracks p + pixelCounts s (prepare s c) p) ∧
    st'.pixelHits = (fun p => st.pixelHits p + pixelCounts s ((prepare s c).filter (validHit s)) p) := by
  unfold stepChunk at h
  dsimp only at h
  cases h1 : updateRegions s (prepare s c) s.regions st.regions with
  | error e => simp [h1] at h
  | ok regs =>
    rw [h1] at h
    dsimp only at h
    cases h2 : updateScope s st.first (prepare s c) st.scope with
    | error e => simp [h2] at h
    | ok sc =>
      rw [h2] at h
      dsimp only at h
      cases h3 : chunkEfficiency s (prepare s c) sc (regs.map RegionState.chunk) st.chunks with
      | error e => simp [h3] at h
      | ok effs =>
        rw [h3] at h
        simp only [Except.ok.injEq] at h
        subst h
        exact ⟨rfl, rfl, h3, rfl, rfl, rfl⟩

theorem filled_step {s : Setup K} {c d : List (Row K)} {st st' : State K} (hf : Filled s d st)
    (h : stepChunk s c st = .ok st') : Filled s (d ++ prepare s c) st' := by
  obtain ⟨-, h2, -, h4, -, -⟩ := stepChunk_ok h
  have hadd : (fun b => counts (trackBin s) d b + counts (trackBin s) (prepare s c) b) =
      counts (trackBin s) (d ++ prepare s c) := by funext b; rw [counts_append]
  unfold updateScope at h2
  simp only [hf.first, hf.tracks, hf.hits, Bool.false_eq_true, if_false] at h2
  by_cases hv : (prepare s c).filter (validHit s) = []
  · simp only [hv, if_true, Except.ok.injEq] at h2
    refine ⟨h4, ?_, ?_⟩
    · rw [← h2, ← hadd]
    · rw [← h2, List.filter_append, hv, List.append_nil]
  · rw [if_neg hv] at h2
    simp only [measure, ne_eq, not_true_eq_false, or_self, if_false, Except.ok.injEq] at h2
    refine ⟨h4, ?_, ?_⟩
    · rw [← h2, ← hadd]
    · rw [← h2, List.filter_append, measure_append]; rfl

theorem filled_loop {s : Setup K} {cs : List (List (Row K))} {d : List (Row K)} {st st' : State K} (hf : Filled s d st)
    (h : chunkLoop s cs st = .ok st') : Filled s (d ++ prepare s cs.flatten) st' := by
  induction cs generalizing d st with
  | nil => simp only [chunkLoop, Except.ok.injEq] at h; subst h; simpa [prepare] using hf
  | cons c r ih =>
    rw [chunkLoop] at h
    cases hc : stepChunk s c st with
    | error e => simp [hc] at h
    | ok st1 =>
      rw [hc] at h
      have := ih (filled_step hf hc) h
      rwa [List.append_assoc, ← prepare_append] at this

omit [IsStrictOrderedRing K] in
theorem filled_first {s : Setup K} {c : List (Row K)} {st st' : State K} (hf : st.first = true)
    (hv : (prepare s c).filter (validHit s) ≠ []) (h : stepChunk s c st = .ok st') : Filled s (prepare s c) st' := by
  obtain ⟨-, h2, -, h4, -, -⟩ := stepChunk_ok h
  unfold updateScope at h2
  simp only [hf, if_true, if_neg hv, Except.ok.injEq] at h2
  exact ⟨h4, by rw [← h2], by rw [← h2]⟩

/-! ### Pixels and regions, for any scope -/

/-- What holds for the pixel histograms and regions after the rows `d`. -/
structure RegionFilled (s : Setup K) (d : List (Row K)) (g : Region K) (r : RegionState K) : Prop where
  stat : r.stat = (d.filter (inRegion g)).length
  efficiency : r.efficiency * r.stat = (((d.filter (inRegion g)).filter (validHit s)).length : K)
  pixelTracks : r.pixelTracks = pixelCounts s (d.filter (inRegion g))
  pixelHits : r.pixelHits = pixelCounts s ((d.filter (inRegion g)).filter (validHit s))

structure Counted (s : Setup K) (d : List (Row K)) (st : State K) : Prop where
  pixelTracks : st.pixelTracks = pixelCounts s d
  pixelHits : st.pixelHits = pixelCounts s (d.filter (validHit s))
  regions : List.Forall₂ (RegionFilled s d) s.regions st.regions

omit [IsStrictOrderedRing K] in
theorem pixelCounts_append (s : Setup K) (a b : List (Row K)) (p : Nat) :
    pixelCounts s (a ++ b) p = pixelCounts s a p + pixelCounts s b p := by
  unfold pixelCounts; rw [counts_append]

theorem updateRegion_ok {s : Setup K} {rows d : List (Row K)} {g : Region K} {r r' : RegionState K} (hf : RegionFilled s d g r)
    (h : updateRegion s rows g r = .ok r') :
    RegionFilled s (d ++ rows) g r' ∧ rows.filter (inRegion g) ≠ [] ∧
      r'.chunk = (((rows.filter (inRegion g)).filter (validHit s)).length : K) / ((rows.filter (inRegion g)).length : K) := by
  unfold updateRegion at h
  dsimp only at h
  by_cases h1 : r.stat + (rows.filter (inRegion g)).length = 0
  · rw [if_pos h1] at h; simp at h
  rw [if_neg h1] at h
  by_cases h2 : (rows.filter (inRegion g)).length = 0
  · rw [if_pos h2] at h; simp at h
  rw [if_neg h2] at h
  simp only [Except.ok.injEq] at h
  subst h
  refine ⟨⟨?_, ?_, ?_, ?_⟩, fun h0 => h2 (by rw [h0]; rfl), rfl⟩
  · simp [hf.stat]
  · have h3 : ((r.stat + (rows.filter (inRegion g)).length : Nat) : K) ≠ 0 := by exact_mod_cast h1
    show (r.efficiency * (r.stat : K) + (((rows.filter (inRegion g)).filter (validHit s)).length : K)) /
      ((r.stat + (rows.filter (inRegion g)).length : Nat) : K) * ((r.stat + (rows.filter (inRegion g)).length : Nat) : K) = _
    rw [div_mul_cancel₀ _ h3, hf.efficiency, List.filter_append, List.filter_append, List.length_append]
    push_cast; ring
  · funext p
    rw [List.filter_append, pixelCounts_append, ← hf.pixelTracks]
  · funext p
    rw [List.filter_append, List.filter_append, pixelCounts_append, ← hf.pixelHits]

theorem updateRegions_ok {s : Setup K} {rows d : List (Row K)} {gs : List (Region K)} {rs rs' : List (RegionState K)}
    (hf : List.Forall₂ (RegionFilled s d) gs rs) (h : updateRegions s rows gs rs = .ok rs') :
    List.Forall₂ (RegionFilled s (d ++ rows)) gs rs' ∧ ∀ g ∈ gs, rows.filter (inRegion g) ≠ [] := by
  induction hf generalizing rs' with
  | nil => simp only [updateRegions, Except.ok.injEq] at h; subst h; simp
  | @cons g r gs rs h1 h2 ih =>
    rw [updateRegions] at h
    cases hu : updateRegion s rows g r with
    | error e => simp [hu] at h
    | ok r' =>
      rw [hu] at h
      dsimp only at h
      cases hus : updateRegions s rows gs rs with
      | error e => simp [hus] at h
      | ok rs1 =>
        rw [hus] at h
        simp only [Except.ok.injEq] at h
        subst h
        obtain ⟨ha, hb, -⟩ := updateRegion_ok h1 hu
        obtain ⟨hc, hd⟩ := ih hus
        refine ⟨.cons ha hc, ?_⟩
        intro g' hg'
        rcases List.mem_cons.mp hg' with rfl | hg'
        · exact hb
        · exact hd g' hg'

theorem counted_step {s : Setup K} {c d : List (Row K)} {st st' : State K} (hf : Counted s d st)
    (h : stepChunk s c st = .ok st') :
    Counted s (d ++ prepare s c) st' ∧ ∀ g ∈ s.regions, (prepare s c).filter (inRegion g) ≠ [] := by
  obtain ⟨h1, -, -, -, h5, h6⟩ := stepChunk_ok h
  obtain ⟨h7, h8⟩ := updateRegions_ok hf.regions h1
  refine ⟨⟨?_, ?_, h7⟩, h8⟩
  · rw [h5, hf.pixelTracks]; funext p; rw [pixelCounts_append]
  · rw [h6, hf.pixelHits]; funext p; rw [List.filter_append, pixelCounts_append]

theorem counted_loop {s : Setup K} {cs : List (List (Row K))} {d : List (Row K)} {st st' : State K} (hf : Counted s d st)
    (h : chunkLoop s cs st = .ok st') :
    Counted s (d ++ prepare s cs.flatten) st' ∧ ∀ c ∈ cs, ∀ g ∈ s.regions, (prepare s c).filter (inRegion g) ≠ [] := by
  induction cs generalizing d st with
  | nil => simp only [chunkLoop, Except.ok.injEq] at h; subst h; simpa [prepare] using hf
  | cons c r ih =>
    rw [chunkLoop] at h
    cases hc : stepChunk s c st with
    | error e => simp [hc] at h
    | ok st1 =>
      rw [hc] at h
      obtain ⟨h1, h2⟩ := counted_step hf hc
      obtain ⟨h3, h4⟩ := ih h1 h
      rw [List.append_assoc, ← prepare_append] at h3
      refine ⟨h3, ?_⟩
      intro c' hc'
      rcases List.mem_cons.mp hc' with rfl | hc'
      · exact h2
      · exact h4 c' hc'

omit [IsStrictOrderedRing K] in
theorem counted_init (s : Setup K) (sc : Scope K) :
    Counted s [] ⟨true, sc, fun _ => 0, fun _ => 0, s.regions.map fun _ => .init, []⟩ := by
  refine ⟨?_, ?_, ?_⟩
  · funext p; simp [pixelCounts, counts]
  · funext p; simp [pixelCounts, counts]
  · show List.Forall₂ _ s.regions (s.regions.map fun _ => RegionState.init)
    rw [List.forall₂_map_right_iff]
    rw [List.forall₂_same]
    intro g _
    refine ⟨by simp [RegionState.init], by simp [RegionState.init], ?_, ?_⟩
    · funext p; simp [RegionState.init, pixelCounts, counts]
    · funext p; simp [RegionState.init, pixelCounts, counts]
end

/-! ### Variables without value -/

theorem hits_none_loop {s : Setup K} {cs : List (List (Row K))} {st st' : State K} (hf : st.first = false)
    (hn : st.scope.hits = none) (h : chunkLoop s cs st = .ok st') : st'.scope.hits = none := by
  induction cs generalizing st with
  | nil => simp only [chunkLoop, Except.ok.injEq] at h; subst h; exact hn
  | cons c r ih =>
    rw [chunkLoop] at h
    cases hc : stepChunk s c st with
    | error e => simp [hc] at h
    | ok st1 =>
      rw [hc] at h
      obtain ⟨-, h2, -, h4, -, -⟩ := stepChunk_ok hc
      refine ih h4 ?_ h
      unfold updateScope at h2
      simp only [hf, hn, Bool.false_eq_true, if_false] at h2
      split at h2
      · simp at h2
      · split at h2
        · split at h2
          · simp only [Except.ok.injEq] at h2; rw [← h2]
          · simp at h2
        · simp at h2

/-- Without valid hit in the chunks, the histograms of valid hits are those of the scope. -/
theorem hits_same_loop {s : Setup K} {cs : List (List (Row K))} {st st' : State K}
    (hv : ∀ c ∈ cs, (prepare s c).filter (validHit s) = []) (h : chunkLoop s cs st = .ok st') :
    st'.scope.hits = st.scope.hits := by
  induction cs generalizing st with
  | nil => simp only [chunkLoop, Except.ok.injEq] at h; subst h; rfl
  | cons c r ih =>
    rw [chunkLoop] at h
    cases hc : stepChunk s c st with
    | error e => simp [hc] at h
    | ok st1 =>
      rw [hc] at h
      obtain ⟨-, h2, -, h4, -, -⟩ := stepChunk_ok hc
      rw [ih (fun c' hc' => hv c' (List.mem_cons_of_mem _ hc')) h]
      have hv1 := hv c List.mem_cons_self
      unfold updateScope at h2
      simp only [hv1, if_true] at h2
      split at h2
      · simp only [Except.ok.injEq] at h2; rw [← h2]
      · split at h2
        · simp at h2
        · split at h2
          · simp only [Except.ok.injEq] at h2; rw [← h2]
          · simp at h2

/-- After a chunk the histogram of tracks is that of all rows, with or without hits. -/
theorem tracks_loop {s : Setup K} {cs : List (List (Row K))} {d : List (Row K)} {st st' : State K} (hf : st.first = false)
    (ht : st.scope.tracks = some (s.shape, counts (trackBin s) d)) (h : chunkLoop s cs st = .ok st') :
    st'.scope.tracks = some (s.shape, counts (trackBin s) (d ++ prepare s cs.flatten)) := by
  induction cs generalizing st d with
  | nil => simp only [chunkLoop, Except.ok.injEq] at h; subst h; simpa [prepare] using ht
  | cons c r ih =>
    rw [chunkLoop] at h
    cases hc : stepChunk s c st with
    | error e => simp [hc] at h
    | ok st1 =>
      rw [hc] at h
      obtain ⟨-, h2, -, h4, -, -⟩ := stepChunk_ok hc
      have hadd : (fun b => counts (trackBin s) d b + counts (trackBin s) (prepare s c) b) =
          counts (trackBin s) (d ++ prepare s c) := by funext b; rw [counts_append]
      have ht1 : st1.scope.tracks = some (s.shape, counts (trackBin s) (d ++ prepare s c)) := by
        unfold updateScope at h2
        simp only [hf, ht, Bool.false_eq_true, if_false] at h2
        split at h2
        · simp only [if_true, Except.ok.injEq] at h2; rw [← h2, ← hadd]
        · split at h2
          · simp at h2
          · split at h2
            · simp at h2
            · simp only [Except.ok.injEq] at h2; rw [← h2, ← hadd]
      have := ih h4 ht1 h
      rwa [List.append_assoc, ← prepare_append] at this

theorem tracks_first {s : Setup K} {c : List (Row K)} {st st' : State K} (hf : st.first = true)
    (h : stepChunk s c st = .ok st') :
    st'.first = false ∧ st'.scope.tracks = some (s.shape, counts (trackBin s) (prepare s c)) ∧
    st'.scope.hits = if (prepare s c).filter (validHit s) = [] then st.scope.hits
      else some (measure s ((prepare s c).filter (validHit s))) := by
  obtain ⟨-, h2, -, h4, -, -⟩ := stepChunk_ok h
  unfold updateScope at h2
  simp only [hf, if_true, Except.ok.injEq] at h2
  exact ⟨h4, by rw [← h2], by rw [← h2]⟩

/-! ### One DUT -/

/-- The state before the first chunk. -/
def start (s : Setup K) (sc : Scope K) : State K :=
  ⟨true, sc, fun _ => 0, fun _ => 0, s.regions.map fun _ => .init, []⟩

/-- The chunks of a table. -/
def chunksOf (T : List (Row K)) (cs : Nat) : List (List (Row K)) :=
  (dataAligned Row.event T { chunkSize := cs }).items.map Prod.fst

theorem dut_ok {s : Setup K} {T : List (Row K)} (hs : SortedBy Row.event T) {cs : Nat} (hcs : 0 < cs) {sc sc' : Scope K}
    {o : Output K} (h : dutEfficiency s T cs sc = .ok (o, sc')) :
    (chunksOf T cs).flatten = T ∧
    ∃ st, chunkLoop s (chunksOf T cs) (start s sc) = .ok st ∧ finish s st = .ok o ∧ sc' = st.scope := by
  obtain ⟨-, hno, -⟩ := BTA.Props.C01_no_loss hs cs hcs
  unfold dutEfficiency at h
  dsimp only at h
  change (match chunkLoop s (chunksOf T cs) (start s sc) with | .error e => _ | .ok st => _) = _ at h
  cases h1 : chunkLoop s (chunksOf T cs) (start s sc) with
  | error e => simp [h1] at h
  | ok st =>
    rw [h1] at h
    dsimp only at h
    cases h2 : (dataAligned Row.event T { chunkSize := cs }).err with
    | some e => simp [h2] at h
    | none =>
      rw [h2] at h
      dsimp only at h
      cases h3 : finish s st with
      | error e => simp [h3] at h
      | ok o' =>
        rw [h3] at h
        simp only [Except.ok.injEq, Prod.mk.injEq] at h
        obtain ⟨rfl, rfl⟩ := h
        refine ⟨?_, st, rfl, h3, rfl⟩
        have := hno h2
        rw [Gen.rows, List.flatMap] at this
        exact this

theorem finish_ok {s : Setup K} {st : State K} {o : Output K} (h : finish s st = .ok o) :
    ∃ sh, st.scope.tracks = some (sh, o.tracks) ∧ st.scope.hits = some o.hits ∧ o.hits.shape = sh ∧
      o.efficiency = (fun b => percent (o.hits.withHit b) (o.tracks b)) ∧ o.mask = (fun b => masked s (o.tracks b)) ∧
      o.pixelEfficiency = (fun p => percent (st.pixelHits p) (st.pixelTracks p)) ∧
      o.pixelMask = (fun p => masked s (st.pixelTracks p)) ∧
      meanEfficiency (total sh o.hits.withHit) (total sh o.tracks) = .ok o.mean ∧
      o.regionEfficiency = st.regions.map RegionState.efficiency ∧
      o.regionPixelEfficiency = (st.regions.map fun g p => percent (g.pixelHits p) (g.pixelTracks p)) := by
  unfold finish at h
  split at h
  · next sh t h' h1 h2 =>
    split at h
    · simp at h
    · next h3 =>
      dsimp only at h
      split at h
      · simp at h
      · next m hm =>
        split at h
        · simp at h
        · simp only [Except.ok.injEq] at h
          subst h
          rw [not_not] at h3
          exact ⟨sh, h1, h2, h3, rfl, rfl, rfl, rfl, by rw [h3] at hm; exact hm, rfl, rfl⟩
  · simp at h

/-! ### Sums of histograms -/

theorem total_add (sh : Nat × Nat) (f g : Nat × Nat → Nat) : total sh (fun b => f b + g b) = total sh f + total sh g := by
  have key : ∀ (n : Nat) (f g : Nat → Nat), ((List.range n).map fun i => f i + g i).sum =
      ((List.range n).map f).sum + ((List.range n).map g).sum := by
    intro n f g
    induction n with
    | zero => simp
    | succ n ih => simp only [List.range_succ, List.map_append, List.sum_append, ih]; simp; omega
  unfold total
  rw [← key]
  congr 1
  apply List.map_congr_left
  intro i _
  exact key _ (fun j => f (i, j)) (fun j => g (i, j))

theorem total_single (sh b : Nat × Nat) (h1 : b.1 < sh.1) (h2 : b.2 < sh.2) :
    total sh (fun c => if b = c then 1 else 0) = 1 := by
  have key : ∀ (n k v : Nat), k < n → ((List.range n).map fun i => if k = i then v else 0).sum = v := by
    intro n k v
    induction n with
    | zero => intro h; omega
    | succ n ih =>
      intro h
      simp only [List.range_succ, List.map_append, List.sum_append]
      by_cases hk : k = n
      · subst hk
        have : ((List.range k).map fun i => if k = i then v else 0).sum = 0 := by
          rw [List.sum_eq_zero_iff]
          intro x hx
          obtain ⟨i, hi, rfl⟩ := List.mem_map.mp hx
          rw [List.mem_range] at hi
          simp; omega
        simp [this]
      · rw [ih (by omega)]; simp [hk]
  unfold total
  rw [show (fun i => ((List.range sh.2).map fun j => if b = (i, j) then 1 else 0).sum) =
      fun i => if b.1 = i then 1 else 0 from ?_]
  · exact key _ _ _ h1
  · funext i
    by_cases hi : b.1 = i
    · rw [if_pos hi, show (fun j => if b = (i, j) then 1 else 0) = fun j => if b.2 = j then 1 else 0 from ?_]
      · exact key _ _ _ h2
      · funext j; rw [← hi]
        by_cases hj : b.2 = j
        · rw [if_pos hj, if_pos (by rw [← hj])]
        · rw [if_neg hj, if_neg (fun h => hj (congrArg Prod.snd h))]
    · rw [if_neg hi]
      rw [List.sum_eq_zero_iff]
      intro x hx
      obtain ⟨j, -, rfl⟩ := List.mem_map.mp hx
      rw [if_neg (fun h => hi (congrArg Prod.fst h))]

/-- The sum of the counts is the number of rows that have a bin. -/
theorem total_counts (sh : Nat × Nat) {ρ : Type} (bin : ρ → Option (Nat × Nat))
    (hb : ∀ r b, bin r = some b → b.1 < sh.1 ∧ b.2 < sh.2) (rows : List ρ) :
    total sh (counts bin rows) = (rows.filter fun r => (bin r).isSome).length := by
  induction rows with
  | nil =>
    have : (counts bin ([] : List ρ)) = fun _ => 0 := by funext b; simp [counts]
    rw [this]; simp [total, List.sum_eq_zero_iff]
  | cons r l ih =>
    have h1 : counts bin (r :: l) = fun b => counts bin [r] b + counts bin l b := by
      funext b; exact counts_append bin [r] l b
    rw [h1, total_add, ih, List.filter_cons]
    cases hr : bin r with
    | none =>
      have : counts bin [r] = fun _ => 0 := by funext b; simp [counts, hr]
      rw [this]; simp [total, List.sum_eq_zero_iff]
    | some b =>
      have : counts bin [r] = fun c => if b = c then 1 else 0 := by
        funext c; simp [counts, hr, List.countP_cons]
      rw [this, total_single sh b (hb r b hr).1 (hb r b hr).2]
      simp; omega

theorem trackBin_bound (s : Setup K) (hx : ValidEdges s.edgesX) (hy : ValidEdges s.edgesY) (r : Row K) (b : Nat × Nat)
    (h : trackBin s r = some b) : b.1 < s.shape.1 ∧ b.2 < s.shape.2 := by
  obtain ⟨i, j⟩ := b
  unfold trackBin at h
  rw [binIndex2_iff hx hy] at h
  obtain ⟨⟨_, _, -, h1, -⟩, ⟨_, _, -, h2, -⟩⟩ := h
  have h1 := (List.getElem?_eq_some_iff.mp h1).1
  have h2 := (List.getElem?_eq_some_iff.mp h2).1
  simp only [Setup.shape]; omega

end BTA.Efficiency
