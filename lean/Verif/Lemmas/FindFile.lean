import Mathlib.Data.List.TakeWhile
import Verif.Model.FindFile
import Verif.Lemmas.FindLocal
import Verif.Props.FindTracks
import Verif.Lemmas.Selection
import Verif.Lemmas.Chunks
/- Lemmas about `find_tracks` for a file: the result for a table is made of the results for parts with whole events. -/
namespace BTA.FindFile
open BTA.Find BTA.Sel
open BTA.Fit (Sampling sampleEvents)

variable {F E : Type} (G : Setting F E)

theorem copyColumn_shift {V : Type} (n : Nat) (k m : Nat) (idx idx' : Nat → Nat → Nat) (h : ∀ r < m, ∀ d, idx (k + r) d = k + idx' r d)
    (hlt : ∀ r < m, ∀ d, idx' r d < m) (name : List Char) (col col' : Nat → V) (hc : ∀ r < m, col (k + r) = col' r) (r : Nat) (hr : r < m) :
    copyColumn n idx name col (k + r) = copyColumn n idx' name col' r := by
  unfold copyColumn
  induction n generalizing r with
  | zero => exact hc r hr
  | succ n ih =>
    rw [List.range_succ, List.foldl_append, List.foldl_append]
    simp only [List.foldl_cons, List.foldl_nil]
    split
    · beta_reduce
      rw [h r hr]
      exact ih _ (hlt r hr n)
    · exact ih r hr

/-- The setup of a chunk. -/
abbrev setupOf (chunk : List (Row E)) : Setup F := { G.setup with ev := chunk.map Row.ev }

/-- The start values of a chunk. -/
abbrev startOf (chunk : List (Row E)) : Tracks F :=
  ⟨fun r d => (posOf G chunk r d).1, fun r d => (posOf G chunk r d).2.1, fun r d => (posOf G chunk r d).2.2, fun r _ => r⟩

theorem findChunk_eq (chunk : List (Row E)) : findChunk G chunk = (findLoop (setupOf G chunk) (-1) 0 (startOf G chunk)).map
    fun t => chunk.zipIdx.map fun p => outRow G chunk t.idx p.1 p.2 := by
  unfold findChunk runFindTracks
  cases findLoop (setupOf G chunk) (-1) 0 (startOf G chunk) <;> rfl

theorem findChunk_total (hn : G.setup.zs.Nodup) (chunk : List (Row E)) : ∃ out, findChunk G chunk = some out := by
  obtain ⟨t, ht⟩ := BTA.Find.Props.C21_terminates (setupOf G chunk) (startOf G chunk).x (startOf G chunk).y (startOf G chunk).z hn
  rw [findChunk_eq]
  unfold runFindTracks at ht
  rw [ht]
  exact ⟨_, rfl⟩

theorem idx_lt (hn : G.setup.zs.Nodup) (chunk : List (Row E)) (t : Tracks F) (h : findLoop (setupOf G chunk) (-1) 0 (startOf G chunk) = some t) :
    ∀ r < chunk.length, ∀ d, t.idx r d < chunk.length := by
  intro r hr d
  have hr' : r < (setupOf G chunk).ev.length := by simpa using hr
  have := ((BTA.Find.Props.C20_indices (setupOf G chunk) _ _ _ hn t h d).1 r hr').1
  simpa using this

theorem findChunk_append (hn : G.setup.zs.Nodup) (A B : List (Row E)) (hAB : ∀ a ∈ A, ∀ b ∈ B, a.ev ≠ b.ev) (oa ob : List (Row E))
    (ha : findChunk G A = some oa) (hb : findChunk G B = some ob) : findChunk G (A ++ B) = some (oa ++ ob) := by
  have hlen : (A.map Row.ev).length = A.length := List.length_map _
  have hlenB : (B.map Row.ev).length = B.length := List.length_map _
  have wA : Window (setupOf G (A ++ B)) (A.map Row.ev) 0 := by
    constructor
    · intro r hr
      change ((A ++ B).map Row.ev)[0 + r]? = _
      rw [Nat.zero_add, List.map_append, List.getElem?_append_left hr]
    · intro e he
      change ((A ++ B).map Row.ev)[0 + _]? ≠ _
      rw [Nat.zero_add, List.map_append, List.getElem?_append_right (Nat.le_refl _), Nat.sub_self]
      intro h
      have hmem := List.mem_of_getElem? h
      obtain ⟨a, ha, rfl⟩ := List.mem_map.mp he
      obtain ⟨b, hb, hab⟩ := List.mem_map.mp hmem
      exact hAB a ha b hb hab.symm
  have wB : Window (setupOf G (A ++ B)) (B.map Row.ev) A.length := by
    constructor
    · intro r hr
      change ((A ++ B).map Row.ev)[A.length + r]? = _
      rw [List.map_append, List.getElem?_append_right (by omega), hlen, Nat.add_sub_cancel_left]
    · intro e he
      change ((A ++ B).map Row.ev)[A.length + _]? ≠ _
      rw [List.getElem?_eq_none (by simp)]
      simp
  have posA : ∀ r < A.length, ∀ d, posOf G (A ++ B) (0 + r) d = posOf G A r d := by
    intro r hr d
    unfold posOf
    rw [Nat.zero_add, List.getElem?_append_left hr]
  have posB : ∀ r < B.length, ∀ d, posOf G (A ++ B) (A.length + r) d = posOf G B r d := by
    intro r hr d
    unfold posOf
    rw [List.getElem?_append_right (by omega), Nat.add_sub_cancel_left]
  have relA : Rel 0 (A.map Row.ev).length (startOf G (A ++ B)) (startOf G A) := by
    rw [hlen]
    refine ⟨?_, ?_, ?_, ?_⟩
    · intro r hr d; dsimp only; rw [posA r hr]
    · intro r hr d; dsimp only; rw [posA r hr]
    · intro r hr d; dsimp only; rw [posA r hr]
    · intro r hr d; rfl
  obtain ⟨t1, tA, an1, g1, g2, g3, g4, g5⟩ := findLoop_sim wA hn 0 (Nat.zero_le _) (-1) (-1) _ _ relA (fun _ => .inl rfl) (by omega)
  rw [hlen] at g1 g3 g4
  rw [Nat.zero_add, Nat.zero_add] at g1
  have relB : Rel A.length (B.map Row.ev).length t1 (startOf G B) := by
    rw [hlenB]
    refine ⟨?_, ?_, ?_, ?_⟩
    · intro r hr d; rw [(g4 (A.length + r) (by omega) d).1]; dsimp only; rw [posB r hr]
    · intro r hr d; rw [(g4 (A.length + r) (by omega) d).2.1]; dsimp only; rw [posB r hr]
    · intro r hr d; rw [(g4 (A.length + r) (by omega) d).2.2.1]; dsimp only; rw [posB r hr]
    · intro r hr d; rw [(g4 (A.length + r) (by omega) d).2.2.2]
  obtain ⟨t2, tB, an2, f1, f2, f3, f4, -⟩ := findLoop_sim wB hn 0 (Nat.zero_le _) an1 (-1) _ _ relB (fun _ => by
    rcases g5 with ⟨-, h⟩ | h | ⟨-, h⟩
    · left; omega
    · right
      intro h'
      obtain ⟨a, ha, rfl⟩ := List.mem_map.mp h
      obtain ⟨b, hb, hab⟩ := List.mem_map.mp (List.mem_of_getElem? h')
      exact hAB a ha b hb hab.symm
    · omega) (by omega)
  rw [hlenB] at f1 f3 f4
  have hend : findLoop (setupOf G (A ++ B)) an2 (A.length + B.length) t2 = some t2 := by
    rw [findLoop, dif_neg (by simp)]
  rw [Nat.add_zero, hend] at f1
  rw [f1] at g1
  have iA : ∀ r < A.length, ∀ d, t2.idx (0 + r) d = 0 + tA.idx r d := by
    intro r hr d
    rw [(f4 (0 + r) (by omega) d).2.2.2]
    exact g3.idx r hr d
  have ltA := idx_lt G hn A tA g2
  have ltB := idx_lt G hn B tB f2
  rw [findChunk_eq] at ha hb ⊢
  rw [show findLoop (setupOf G A) (-1) 0 (startOf G A) = some tA from g2, Option.map_some] at ha
  rw [show findLoop (setupOf G B) (-1) 0 (startOf G B) = some tB from f2, Option.map_some] at hb
  rw [g1, Option.map_some, ← Option.some.inj ha, ← Option.some.inj hb]
  congr 1
  rw [List.zipIdx_append, List.map_append]
  congr 1
  · apply List.map_congr_left
    rintro ⟨row, r⟩ hp
    have hr : r < A.length := by
      have := List.snd_lt_of_mem_zipIdx hp
      simpa using this
    have hcol : ∀ name, copyColumn G.n t2.idx name (fun r' => (A ++ B).getD r' row) r = copyColumn G.n tA.idx name (fun r' => A.getD r' row) r := by
      intro name
      have := copyColumn_shift G.n 0 A.length t2.idx tA.idx iA ltA name (fun r' => (A ++ B).getD r' row) (fun r' => A.getD r' row) (fun r' hr' => by
        rw [Nat.zero_add, List.getD_eq_getElem?_getD, List.getD_eq_getElem?_getD, List.getElem?_append_left hr']) r hr
      rw [Nat.zero_add] at this
      exact this
    unfold outRow
    simp only [hcol]
  · apply List.ext_getElem
    · simp
    · intro i h1 h2
      have hi : i < B.length := by simpa using h2
      simp only [List.getElem_map, List.getElem_zipIdx, Nat.zero_add]
      have hcol : ∀ name, copyColumn G.n t2.idx name (fun r' => (A ++ B).getD r' B[i]) (A.length + i) = copyColumn G.n tB.idx name (fun r' => B.getD r' B[i]) i := by
        intro name
        exact copyColumn_shift G.n A.length B.length t2.idx tB.idx f3.idx ltB name _ _ (fun r' hr' => by
          rw [List.getD_eq_getElem?_getD, List.getD_eq_getElem?_getD, List.getElem?_append_right (by omega), Nat.add_sub_cancel_left]) i hi
      unfold outRow
      simp only [hcol]

theorem findChunk_nil : findChunk G [] = some [] := by
  rw [findChunk_eq, findLoop, dif_neg (by simp)]
  rfl

/-- The loop over the chunks does the track finding for the rows that `reduce_events` selects. -/
theorem fileLoop_reduce (hn : G.setup.zs.Nodup) (S : Sampling) (maxEvents total : Nat) (hmax : maxEvents ≠ 0) (items : List (List (Row E) × Nat))
    (hsep : BTA.Merge.Separated Row.ev items) (stored : Nat) :
    ∃ out, findChunk G (reduceLoop Row.ev S maxEvents total items stored).1 = some out ∧
      fileLoop G S maxEvents total items stored = some (out, (reduceLoop Row.ev S maxEvents total items stored).2) := by
  induction items generalizing stored with
  | nil => exact ⟨[], findChunk_nil G, rfl⟩
  | cons it rest ih =>
    obtain ⟨chunk, idx⟩ := it
    unfold BTA.Merge.Separated at hsep
    rw [List.pairwise_cons] at hsep
    rw [reduceLoop, fileLoop]
    unfold pick
    rw [if_neg hmax]
    cases hs : sampleEvents S maxEvents stored total idx (chunk.map Row.ev).dedup with
    | none => exact ⟨[], findChunk_nil G, rfl⟩
    | some sel =>
      dsimp only
      obtain ⟨o2, h1, h2⟩ := ih hsep.2 (stored + sel.length)
      obtain ⟨o1, h3⟩ := findChunk_total G hn (chunk.filter fun t => decide (t.ev ∈ sel))
      rw [h2, h3]
      refine ⟨o1 ++ o2, findChunk_append G hn _ _ ?_ _ _ h3 h1, rfl⟩
      intro a ha b hb
      have ha' := (List.mem_filter.mp ha).1
      have hsub : ∀ (items : List (List (Row E) × Nat)) (st : Nat) (b : Row E), b ∈ (reduceLoop Row.ev S maxEvents total items st).1 → ∃ q ∈ items, b ∈ q.1 := by
        intro items
        induction items with
        | nil => intro st b hb; simp [reduceLoop] at hb
        | cons it rest ih =>
          intro st b hb
          obtain ⟨c, i⟩ := it
          rw [reduceLoop] at hb
          cases hs : sampleEvents S maxEvents st total i (c.map Row.ev).dedup with
          | none => rw [hs] at hb; simp at hb
          | some sel =>
            rw [hs] at hb
            dsimp only at hb
            rcases List.mem_append.mp hb with hb | hb
            · exact ⟨(c, i), List.mem_cons_self, (List.mem_filter.mp hb).1⟩
            · obtain ⟨q, hq, hq'⟩ := ih _ b hb
              exact ⟨q, List.mem_cons_of_mem _ hq, hq'⟩
      obtain ⟨q, hq, hbq⟩ := hsub rest _ b hb
      exact (hsep.1 q hq a ha' b hbq).ne

/-- Without limit: the track finding of all rows. -/
theorem fileLoop_all (hn : G.setup.zs.Nodup) (S : Sampling) (total : Nat) (items : List (List (Row E) × Nat))
    (hsep : BTA.Merge.Separated Row.ev items) (stored : Nat) :
    ∃ out, findChunk G (items.flatMap Prod.fst) = some out ∧ fileLoop G S 0 total items stored = some (out, none) := by
  induction items generalizing stored with
  | nil => exact ⟨[], findChunk_nil G, rfl⟩
  | cons it rest ih =>
    obtain ⟨chunk, idx⟩ := it
    unfold BTA.Merge.Separated at hsep
    rw [List.pairwise_cons] at hsep
    rw [fileLoop]
    unfold pick
    rw [if_pos rfl]
    dsimp only
    obtain ⟨o2, h1, h2⟩ := ih hsep.2 (stored + 0)
    obtain ⟨o1, h3⟩ := findChunk_total G hn chunk
    rw [h2, h3]
    refine ⟨o1 ++ o2, ?_, rfl⟩
    rw [List.flatMap_cons]
    refine findChunk_append G hn _ _ ?_ _ _ h3 h1
    intro a ha b hb
    obtain ⟨q, hq, hbq⟩ := List.mem_flatMap.mp hb
    exact (hsep.1 q hq a ha b hbq).ne

/-- The rows keep their event numbers. -/
theorem findChunk_ev (chunk out : List (Row E)) (h : findChunk G chunk = some out) : out.map Row.ev = chunk.map Row.ev := by
  rw [findChunk_eq, Option.map_eq_some_iff] at h
  obtain ⟨t, -, rfl⟩ := h
  rw [List.map_map, show (Row.ev ∘ fun p : Row E × Nat => outRow G chunk t.idx p.1 p.2) = Row.ev ∘ Prod.fst from rfl, ← List.map_map, List.zipIdx_map_fst]

theorem filter_const (q : Int → Bool) (e : Int) (l : List (Row E)) (h : ∀ x ∈ l, x.ev = e) :
    (l.filter fun t => q t.ev) = if q e then l else [] := by
  cases hq : q e with
  | true => simp only [if_true]; exact List.filter_eq_self.mpr fun x hx => by rw [h x hx, hq]
  | false =>
    simp only [Bool.false_eq_true, if_false]
    exact List.filter_eq_nil_iff.mpr fun x hx => by rw [h x hx, hq]; simp

/-- The candidates of a selection of events are the selection of the candidates. -/
theorem findChunk_filter (hn : G.setup.zs.Nodup) (q : Int → Bool) : ∀ (n : Nat) (T : List (Row E)), T.length ≤ n → BTA.Spec.SortedBy Row.ev T → ∀ out, findChunk G T = some out →
    findChunk G (T.filter fun t => q t.ev) = some (out.filter fun t => q t.ev) := by
  intro n
  induction n with
  | zero =>
    intro T hl _ out h
    have : T = [] := List.length_eq_zero_iff.mp (by omega)
    subst this
    rw [findChunk_nil] at h
    rw [← Option.some.inj h]
    exact findChunk_nil G
  | succ n ih =>
    intro T hl hs out h
    cases T with
    | nil =>
      rw [findChunk_nil] at h
      rw [← Option.some.inj h]
      exact findChunk_nil G
    | cons a T' =>
      let A := (a :: T').takeWhile fun t => decide (t.ev = a.ev)
      let B := (a :: T').dropWhile fun t => decide (t.ev = a.ev)
      have hAB : A ++ B = a :: T' := List.takeWhile_append_dropWhile
      have hA : ∀ x ∈ A, x.ev = a.ev := fun x hx => of_decide_eq_true (List.mem_takeWhile_imp (p := fun t : Row E => decide (t.ev = a.ev)) hx)
      have hs' : BTA.Spec.SortedBy Row.ev (A ++ B) := by rw [hAB]; exact hs
      have hsB : BTA.Spec.SortedBy Row.ev B := (List.pairwise_append.mp hs').2.1
      have hBlen : B.length ≤ n := by
        have hB : B = T'.dropWhile fun t => decide (t.ev = a.ev) := by
          change List.dropWhile _ (a :: T') = _
          rw [List.dropWhile_cons_of_pos (by simp)]
        rw [hB]
        have := (List.dropWhile_sublist (l := T') fun t : Row E => decide (t.ev = a.ev)).length_le
        simp only [List.length_cons] at hl
        omega
      have hB : ∀ b ∈ B, b.ev ≠ a.ev := by
        intro b hb hba
        obtain ⟨b0, B', hBc⟩ : ∃ b0 B', B = b0 :: B' := by
          cases hBB : B with
          | nil => rw [hBB] at hb; cases hb
          | cons b0 B' => exact ⟨_, _, rfl⟩
        have h0 : ¬ b0.ev = a.ev := by
          have := List.head?_dropWhile_not (fun t : Row E => decide (t.ev = a.ev)) (a :: T')
          rw [show (List.dropWhile (fun t : Row E => decide (t.ev = a.ev)) (a :: T')) = b0 :: B' from hBc] at this
          simpa using this
        have hab0 : a.ev ≤ b0.ev := by
          have haA : a ∈ A := by
            change a ∈ List.takeWhile _ (a :: T')
            rw [List.takeWhile_cons_of_pos (by simp)]
            exact List.mem_cons_self
          exact (List.pairwise_append.mp hs').2.2 a haA b0 (by rw [hBc]; exact List.mem_cons_self)
        have : b0.ev ≤ b.ev := by
          rw [hBc] at hb hsB
          rcases List.mem_cons.mp hb with rfl | hb
          · exact Int.le_refl _
          · exact List.rel_of_pairwise_cons hsB hb
        omega
      obtain ⟨oa, ha⟩ := findChunk_total G hn A
      obtain ⟨ob, hb⟩ := findChunk_total G hn B
      have happ := findChunk_append G hn A B (fun x hx y hy => by rw [hA x hx]; exact fun h => hB y hy h.symm) oa ob ha hb
      rw [hAB, h] at happ
      have hout := Option.some.inj happ
      have hoa : ∀ x ∈ oa, x.ev = a.ev := by
        intro x hx
        have : x.ev ∈ A.map Row.ev := by
          rw [← findChunk_ev G A oa ha]
          exact List.mem_map_of_mem hx
        obtain ⟨y, hy, hyx⟩ := List.mem_map.mp this
        rw [← hyx, hA y hy]
      rw [hout, ← hAB, List.filter_append, List.filter_append]
      apply findChunk_append G hn
      · intro x hx y hy
        rw [hA x (List.mem_of_mem_filter hx)]
        exact fun h => hB y (List.mem_of_mem_filter hy) h.symm
      · rw [filter_const q a.ev A hA, filter_const q a.ev oa hoa]
        cases q a.ev with
        | true => exact ha
        | false => exact findChunk_nil G
      · exact ih B hBlen hsB ob hb

end BTA.FindFile
