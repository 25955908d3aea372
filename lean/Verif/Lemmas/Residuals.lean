import Verif.Model.Residuals
import Verif.Spec.Residuals
import Verif.Lemmas.Binning
import Verif.Props.ChunkReader

/-! Lemmas on `calculate_residuals`. -/

namespace BTA.Residuals
open BTA.Binning BTA.Spec Spec

variable {K : Type} [Field K] [LinearOrder K]

theorem select_append (a b : List (Track K)) : select (a ++ b) = select a ++ select b := by simp [select]

theorem select_flatten (l : List (List (Track K))) : select l.flatten = (l.map select).flatten := by
  induction l with
  | nil => simp [select]
  | cons a r ih => rw [List.flatten_cons, select_append, ih]; simp

theorem within_iff (limit : Option (Limit K)) (v : K) : within limit v = true ↔ Inside limit v := by
  unfold within Inside
  rcases limit with - | ⟨lo, hi⟩
  · simp
  · simp only [Option.some.injEq, forall_eq']
    cases lo <;> cases hi <;> simp

section
variable [IsStrictOrderedRing K]

theorem profile_append (pos val : Pt K → K) (pe ve : List K) (l m : List (Pt K)) :
    profile pos val pe ve (l ++ m) = (profile pos val pe ve l).add (profile pos val pe ve m) := by
  simp only [profile, Profile.add, Profile.mk.injEq]
  refine ⟨?_, ?_, ?_⟩
  · funext b; rw [counts_append]
  · funext b; rw [average_binMean]
  · funext b; rw [counts_append]

theorem measure_append (s : Setup K) (e : Edges K) (l m : List (Pt K)) :
    measure s e (l ++ m) = (measure s e l).add (measure s e m) := by
  simp only [measure, Hists.add, Hists.mk.injEq, List.filter_append, profile_append, true_and]
  refine ⟨?_, ?_, ?_, ?_, ?_⟩ <;> funext b
  · rw [counts_append]
  · rw [counts_append]
  · rw [average_binMean]
  · rw [counts_append]
  · rw [counts_append]

theorem chunkLoop_some (s : Setup K) (e : Edges K) (l : List (Pt K)) (cs : List (List (Track K))) :
    chunkLoop s cs (some (e, measure s e l)) = .ok (some (e, measure s e (l ++ select cs.flatten))) := by
  induction cs generalizing l with
  | nil => simp [chunkLoop, select]
  | cons c r ih =>
    rw [chunkLoop, ← measure_append, ih, List.flatten_cons, select_append, List.append_assoc]

/-- The result of the loop: the edges of the first chunk and the histograms of all rows for these edges. -/
theorem chunkLoop_cons (s : Setup K) (c : List (Track K)) (cs : List (List (Track K))) :
    chunkLoop s (c :: cs) none =
      match chooseEdges s (select c) with
      | .error e => .error e
      | .ok e => .ok (some (e, measure s e (select (c :: cs).flatten))) := by
  rw [chunkLoop]
  cases h : chooseEdges s (select c) with
  | error e => rfl
  | ok e => simp only [chunkLoop_some, List.flatten_cons, select_append]

theorem residuals_eq (s : Setup K) (T : List (Track K)) (hs : SortedBy Track.event T) (cs : Nat) (hcs : 0 < cs)
    (e : Edges K) (h : Hists K) (hr : residuals s T cs = .ok (e, h)) :
    h = measure s e (select T) ∧ ∃ n, n ≤ cs ∧ chooseEdges s (select (T.take n)) = .ok e := by
  unfold residuals at hr
  obtain ⟨-, hno, -⟩ := BTA.Props.C01_no_loss hs cs hcs
  generalize hg : dataAligned Track.event T { chunkSize := cs } = g at hr hno
  dsimp only at hr
  cases hi : g.items.map Prod.fst with
  | nil =>
    rw [hi] at hr
    simp only [chunkLoop] at hr
    cases h0 : g.err <;> simp [h0] at hr
  | cons c r =>
    rw [hi, chunkLoop_cons] at hr
    cases hc : chooseEdges s (select c) with
    | error e' => simp [hc] at hr
    | ok e' =>
      rw [hc] at hr
      cases h0 : g.err with
      | some e'' => simp [h0] at hr
      | none =>
        simp only [h0, Except.ok.injEq, Prod.mk.injEq] at hr
        obtain ⟨rfl, rfl⟩ := hr
        have hrows : (c :: r).flatten = T := by
          rw [← hi, ← hno h0, Gen.rows, List.flatMap]
        refine ⟨by rw [hrows], c.length, ?_, ?_⟩
        · have hm : c ∈ g.items.map Prod.fst := by rw [hi]; exact List.mem_cons_self
          rw [List.mem_map] at hm
          obtain ⟨⟨c', idx⟩, hm, rfl⟩ := hm
          have := BTA.Props.C02_chunks_aligned (T := T) hs { chunkSize := cs } hcs rfl (by simp) c' idx
            (by rw [hg]; exact hm)
          exact this.2.1
        · rw [← hrows, List.flatten_cons, List.take_left]; exact hc
end

section
variable [IsStrictOrderedRing K]

/-- Without too large events the only exceptions are those of the edges and of an empty table. -/
theorem residuals_total (s : Setup K) (T : List (Track K)) (hs : SortedBy Track.event T) (cs : Nat) (hcs : 0 < cs)
    (hm : ∀ e, multiplicity Track.event T e < cs) :
    (T = [] ∧ residuals s T cs = .error .noTracks) ∨
    (T ≠ [] ∧ ∃ n, 0 < n ∧ n ≤ cs ∧ residuals s T cs =
      match chooseEdges s (select (T.take n)) with
      | .error e => .error e
      | .ok e => .ok (e, measure s e (select T))) := by
  obtain ⟨he, hrows⟩ := BTA.Props.C01_complete hs cs hcs hm
  unfold residuals
  generalize hg : dataAligned Track.event T { chunkSize := cs } = g at he hrows ⊢
  dsimp only
  cases hi : g.items.map Prod.fst with
  | nil =>
    left
    have : g.items = [] := by simpa using hi
    rw [Gen.rows, this] at hrows
    refine ⟨by simpa using hrows.symm, ?_⟩
    rw [he]; simp [chunkLoop]
  | cons c r =>
    right
    have hfl : (c :: r).flatten = T := by rw [← hi, ← hrows, Gen.rows, List.flatMap]
    have hm : c ∈ g.items.map Prod.fst := by rw [hi]; exact List.mem_cons_self
    rw [List.mem_map] at hm
    obtain ⟨⟨c', idx⟩, hm, rfl⟩ := hm
    have hc := BTA.Props.C02_chunks_aligned (T := T) hs { chunkSize := cs } hcs rfl (by simp) c' idx (by rw [hg]; exact hm)
    refine ⟨?_, c'.length, List.length_pos_iff.mpr hc.1, hc.2.1, ?_⟩
    · intro h0
      rw [h0, List.flatten_cons, List.append_eq_nil_iff] at hfl
      exact hc.1 hfl.1
    · rw [chunkLoop_cons, hfl, he, show T.take c'.length = c' by rw [← hfl, List.flatten_cons, List.take_left]]
      cases chooseEdges s (select c') <;> rfl
end

/-- Counting selected points is counting rows of the table. -/
theorem filter_select (T : List (Track K)) (P : Pt K → Bool) (f : Pt K → K) (Q : Track K → Prop) (g : Track K → K)
    (hPQ : ∀ t hx hy c, t.hit = some (hx, hy) → t.chi2 = some c →
      ((P ⟨hx, hy, t.ix, t.iy⟩ = true ↔ Q t) ∧ f ⟨hx, hy, t.ix, t.iy⟩ = g t)) :
    ((select T).filter P).map f = valuesOf T (fun t => Found t ∧ Q t) g := by
  classical
  unfold valuesOf
  induction T with
  | nil => simp [select]
  | cons t r ih =>
    have hcons : select (t :: r) = select [t] ++ select r := select_append [t] r
    rw [hcons, List.filter_append, List.map_append, ih, List.filter_cons]
    rcases ht : t.hit with - | ⟨hx, hy⟩
    · have : ¬ Found t := by simp [Found, ht]
      simp [select, ht, this]
    · rcases hc : t.chi2 with - | c
      · have : ¬ Found t := by simp [Found, hc]
        simp [select, hc, this]
      · have hf : Found t := by simp [Found, ht, hc]
        obtain ⟨h1, h2⟩ := hPQ t hx hy c ht hc
        by_cases hq : Q t
        · simp [select, ht, hc, h1.mpr hq, hf, hq, h2]
        · have : P ⟨hx, hy, t.ix, t.iy⟩ = false := by
            cases hp : P ⟨hx, hy, t.ix, t.iy⟩
            · rfl
            · exact absurd (h1.mp hp) hq
          simp [select, ht, hc, this, hq]

theorem count_select (T : List (Track K)) (P : Pt K → Bool) (Q : Track K → Prop)
    (hPQ : ∀ t hx hy c, t.hit = some (hx, hy) → t.chi2 = some c → (P ⟨hx, hy, t.ix, t.iy⟩ = true ↔ Q t)) :
    ((select T).filter P).length = number T (fun t => Found t ∧ Q t) := by
  classical
  have h := filter_select T P (fun _ => 0) Q (fun _ => 0) fun t hx hy c h1 h2 => ⟨hPQ t hx hy c h1 h2, rfl⟩
  have := congrArg List.length h
  simpa [valuesOf, number] using this

end BTA.Residuals
