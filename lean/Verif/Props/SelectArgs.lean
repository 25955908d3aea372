import Verif.Lemmas.SelectArgs
import Verif.Props.DataSelection
/-
C174: each selected DUT of `select_tracks` gets its own criteria.
C175: wrong arguments of `select_tracks` and the output file.
-/
namespace BTA.SelArgs.Props
open BTA.Sel BTA.Spec BTA.SelArgs BTA.Spec.SelArgs BTA.SelArgs.Lemmas
open BTA.Fit (Sampling)
open BTA.Props (C40_select_dut)

/-! ### C174 -/

/-- C174: the arguments are accepted exactly if they have one of the documented forms, and each DUT gets the lists and the query they denote. -/
theorem C174_meaning (a : Args) (l : List Setting) : settings a = .ok l ↔ Means a l := settings_ok a l

theorem bits_ok {o : Option (List Int)} (h : ∀ i ∈ o.getD [], 0 ≤ i) : bits o = some ((o.getD []).map Int.toNat) := by
  cases o with
  | none => rfl
  | some l =>
    unfold bits
    dsimp only
    rw [if_neg]
    · rfl
    · rw [List.any_eq_true]
      rintro ⟨i, hi, hi'⟩
      have := h i hi
      rw [decide_eq_true_eq] at hi'
      omega

theorem mem_bits {o : Option (List Int)} (h : ∀ i ∈ o.getD [], 0 ≤ i) (d : Nat) : d ∈ (o.getD []).map Int.toNat ↔ dutsOf o d := by
  unfold dutsOf
  rw [List.mem_map]
  constructor
  · rintro ⟨i, hi, rfl⟩
    rw [Int.toNat_of_nonneg (h i hi)]
    exact hi
  · intro hd
    exact ⟨d, hd, Int.toNat_natCast d⟩

/-- No negative numbers in the lists. -/
def Natural (s : Setting) : Prop := ∀ o ∈ [s.hit, s.noHit, s.quality, s.isoTrack, s.isoHit], ∀ i ∈ o.getD [], 0 ≤ i

theorem criteria_ok {s : Setting} (h : Natural s) : ∃ c, criteria s = some c ∧ (∀ f, Required c f ↔ Kept s f) ∧
    (∀ d, d ∈ c.noHit ↔ dutsOf s.noHit d) ∧
    ((c.hit = [] ∧ c.noHit = [] ∧ c.quality = [] ∧ c.isoTrack = [] ∧ c.isoHit = []) ↔ ∀ o ∈ [s.hit, s.noHit, s.quality, s.isoTrack, s.isoHit], o.getD [] = []) := by
  have h1 := h s.hit (by simp)
  have h2 := h s.noHit (by simp)
  have h3 := h s.quality (by simp)
  have h4 := h s.isoTrack (by simp)
  have h5 := h s.isoHit (by simp)
  refine ⟨⟨(s.hit.getD []).map Int.toNat, (s.noHit.getD []).map Int.toNat, (s.quality.getD []).map Int.toNat, (s.isoTrack.getD []).map Int.toNat,
    (s.isoHit.getD []).map Int.toNat⟩, ?_, ?_, ?_, ?_⟩
  · unfold criteria
    rw [bits_ok h1, bits_ok h2, bits_ok h3, bits_ok h4, bits_ok h5]
  · intro f
    unfold Required Kept
    simp only [mem_bits h1, mem_bits h2, mem_bits h3, mem_bits h4, mem_bits h5]
  · intro d
    exact mem_bits h2 d
  · simp only [List.map_eq_nil_iff, List.mem_cons, List.not_mem_nil, or_false, forall_eq_or_imp, forall_eq]

section
variable {R : Type}

theorem queryTrue_eq (eval : String → R → Bool) (s : String) (t : R) : queryTrue (queryOf eval s) t = (s == "" || eval s t) := by
  unfold queryTrue queryOf
  split
  · rename_i h; simp [h]
  · rename_i h; simp [h]

open Classical in
/-- The rows of a table that fulfil what the setting asks for. -/
noncomputable def selection (flags : R → Flags) (eval : String → R → Bool) (s : Setting) (T : List R) : List R :=
  T.filter fun t => decide (Kept s (flags t)) && (s.query == "" || eval s.query t)

open Classical in
theorem oneDut_ok (ev : R → Int) (flags : R → Flags) (eval : String → R → Bool) (S : Sampling) (cs : Nat) (hcs : 0 < cs) (tables : Int → Option (List R))
    (done : List Int) (s : Setting) (T : List R) (hT : tables s.dut = some T) (hsort : SortedBy ev T) (hm : ∀ e, multiplicity ev T e < cs)
    (hf : ∀ t ∈ T, (flags t).hit < 2 ^ 32) (hnat : Natural s) (h32 : ∀ i ∈ s.noHit.getD [], i < 32) (hd : s.dut ∉ done) :
    oneDut ev flags eval S 0 cs tables done s = (some (selection flags eval s T),
      if (∃ o ∈ [s.hit, s.noHit, s.quality, s.isoTrack, s.isoHit], o.getD [] ≠ []) ∧ ∃ t ∈ T, Kept s (flags t) then none
      else some (.select .zeroDivision)) := by
  obtain ⟨c, hc, hreq, hno, hnil⟩ := criteria_ok hnat
  have hsel := C40_select_dut ev flags c (queryOf eval s.query) S cs hcs T hsort hm hf (fun d hd' => by
    have := h32 d ((hno d).mp hd')
    omega)
  have hrows : (T.filter fun t => decide (Required c (flags t)) && queryTrue (queryOf eval s.query) t) = selection flags eval s T := by
    unfold selection
    apply List.filter_congr
    intro t _
    rw [queryTrue_eq]
    congr 1
    rw [decide_eq_decide]
    exact hreq _
  rw [hrows] at hsel
  unfold oneDut
  rw [hT]
  dsimp only
  rw [hc]
  dsimp only
  rw [if_neg hd, hsel]
  have hcond : ((c.hit = [] ∧ c.noHit = [] ∧ c.quality = [] ∧ c.isoTrack = [] ∧ c.isoHit = []) ∨ ¬ ∃ t ∈ T, Required c (flags t)) ↔
      ¬ ((∃ o ∈ [s.hit, s.noHit, s.quality, s.isoTrack, s.isoHit], o.getD [] ≠ []) ∧ ∃ t ∈ T, Kept s (flags t)) := by
    rw [hnil]
    simp only [hreq]
    rw [not_and_or]
    push Not
    rfl
  by_cases hx : (∃ o ∈ [s.hit, s.noHit, s.quality, s.isoTrack, s.isoHit], o.getD [] ≠ []) ∧ ∃ t ∈ T, Kept s (flags t)
  · rw [if_pos hx, if_neg (fun h => hcond.mp h hx)]
  · rw [if_neg hx, if_pos (hcond.mpr hx)]

/-- C174. Distinct DUTs with a sorted track table, lists of DUT numbers, at least one list with DUTs and at least one track that fulfils them for each of the
selected DUTs: the output contains for every selected DUT, in their order, exactly the tracks that fulfil the criteria and the query given for this DUT. -/
theorem C174_selection (ev : R → Int) (flags : R → Flags) (eval : String → R → Bool) (S : Sampling) (cs : Nat) (hcs : 0 < cs)
    (tables : Int → Option (List R)) (a : Args) (l : List Setting) (hl : Means a l) (hd : (l.map Setting.dut).Nodup) (T : Int → List R)
    (h : ∀ s ∈ l, tables s.dut = some (T s.dut) ∧ SortedBy ev (T s.dut) ∧ (∀ e, multiplicity ev (T s.dut) e < cs) ∧
      (∀ t ∈ T s.dut, (flags t).hit < 2 ^ 32) ∧ Natural s ∧ (∀ i ∈ s.noHit.getD [], i < 32) ∧
      (∃ o ∈ [s.hit, s.noHit, s.quality, s.isoTrack, s.isoHit], o.getD [] ≠ []) ∧ ∃ t ∈ T s.dut, Kept s (flags t)) :
    selectTracksCall ev flags eval S 0 cs tables a = ⟨some (l.map fun s => (s.dut, selection flags eval s (T s.dut))), none⟩ := by
  unfold selectTracksCall
  rw [(C174_meaning a l).mpr hl]
  dsimp only
  have key : ∀ (l : List Setting) (done : List Int), (∀ s ∈ l, s.dut ∉ done) → (l.map Setting.dut).Nodup →
      (∀ s ∈ l, tables s.dut = some (T s.dut) ∧ SortedBy ev (T s.dut) ∧ (∀ e, multiplicity ev (T s.dut) e < cs) ∧
      (∀ t ∈ T s.dut, (flags t).hit < 2 ^ 32) ∧ Natural s ∧ (∀ i ∈ s.noHit.getD [], i < 32) ∧
      (∃ o ∈ [s.hit, s.noHit, s.quality, s.isoTrack, s.isoHit], o.getD [] ≠ []) ∧ ∃ t ∈ T s.dut, Kept s (flags t)) →
      loop ev flags eval S 0 cs tables done l = (l.map fun s => (s.dut, selection flags eval s (T s.dut)), none) := by
    intro l
    induction l with
    | nil => intros; rfl
    | cons s r ih =>
      intro done hdone hnd hall
      obtain ⟨g1, g2, g3, g4, g5, g6, g7, g8⟩ := hall s List.mem_cons_self
      unfold loop
      rw [oneDut_ok ev flags eval S cs hcs tables done s (T s.dut) g1 g2 g3 g4 g5 g6 (hdone s List.mem_cons_self), if_pos ⟨g7, g8⟩]
      dsimp only
      rw [List.map_cons, List.nodup_cons] at hnd
      rw [ih (s.dut :: done) ?_ hnd.2 fun s' hs' => hall s' (List.mem_cons_of_mem _ hs')]
      · rfl
      · intro s' hs' hmem
        rcases List.mem_cons.mp hmem with h' | h'
        · exact hnd.1 (h' ▸ List.mem_map_of_mem hs')
        · exact hdone s' (List.mem_cons_of_mem _ hs') h'
  rw [key l [] (by simp) hd h]

/-- C174: with a query only, no lists of DUTs, the call raises an exception after the first DUT and the other DUTs are missing. -/
theorem C174_query_only (ev : R → Int) (flags : R → Flags) (eval : String → R → Bool) (S : Sampling) (cs : Nat) (hcs : 0 < cs)
    (tables : Int → Option (List R)) (d : Int) (ds : List Int) (q : String) (T : List R) (hT : tables d = some T) (hsort : SortedBy ev T)
    (hm : ∀ e, multiplicity ev T e < cs) (hf : ∀ t ∈ T, (flags t).hit < 2 ^ 32) :
    selectTracksCall ev flags eval S 0 cs tables { select := .each ((d :: ds).map some), query := .one q } =
      ⟨some [(d, T.filter fun t => q == "" || eval q t)], some (.select .zeroDivision)⟩ := by
  have hmeans : Means { select := .each ((d :: ds).map some), query := .one q } ((d :: ds).map fun d => Setting.mk d (some []) (some []) (some []) (some []) (some []) q) := by
    have hc : ∀ {T : Type} (x : T), (d :: ds).map (fun _ => x) = List.replicate (d :: ds).length x := by intro T x; simp [List.replicate_succ]
    refine ⟨⟨by simp, ?_⟩, ?_, ?_, ?_, ?_, ?_, ?_, ?_⟩
    · rw [List.map_map]; rfl
    all_goals try (simp only [List.map_map, List.length_map, Function.comp_def, hc]; first | exact .nothing | exact .same q)
    intro s hs
    obtain ⟨x, -, rfl⟩ := List.mem_map.mp hs
    simp
  unfold selectTracksCall
  rw [(C174_meaning _ _).mpr hmeans]
  dsimp only
  rw [List.map_cons]
  unfold loop
  rw [oneDut_ok ev flags eval S cs hcs tables [] _ T hT hsort hm hf (by intro o ho; simp at ho; subst ho; simp) (by simp) (by simp), if_neg (by simp)]
  dsimp only [stored]
  congr 4
  unfold selection
  apply List.filter_congr
  intro t _
  have : Kept ⟨d, some [], some [], some [], some [], some [], q⟩ (flags t) := by simp [Kept, dutsOf]
  simp [this]

/-! ### C175 -/

/-- C175, the true part: if the arguments have none of the documented forms, an exception is raised and the output file is not touched. Missing: numbers that
cannot be used, see the theorems below. -/
theorem C175_refused_partial (ev : R → Int) (flags : R → Flags) (eval : String → R → Bool) (S : Sampling) (maxEvents cs : Nat)
    (tables : Int → Option (List R)) (a : Args) (h : ¬ ∃ l, Means a l) :
    ∃ e, selectTracksCall ev flags eval S maxEvents cs tables a = ⟨none, some e⟩ := by
  unfold selectTracksCall
  cases hs : settings a with
  | error e => exact ⟨e, rfl⟩
  | ok l => exact absurd ⟨l, (C174_meaning a l).mp hs⟩ h

/-- C175: with arguments of a documented form the output file is always replaced, whatever happens then. -/
theorem C175_replaced (ev : R → Int) (flags : R → Flags) (eval : String → R → Bool) (S : Sampling) (maxEvents cs : Nat)
    (tables : Int → Option (List R)) (a : Args) (l : List Setting) (h : Means a l) :
    (selectTracksCall ev flags eval S maxEvents cs tables a).output ≠ none := by
  unfold selectTracksCall
  rw [(C174_meaning a l).mpr h]
  simp

/-- C175, false: a DUT without tracks in the input file, or a negative number in a list of the first DUT, is noticed after the output file has been replaced:
it is empty. -/
theorem C175_late (ev : R → Int) (flags : R → Flags) (eval : String → R → Bool) (S : Sampling) (maxEvents cs : Nat)
    (tables : Int → Option (List R)) (a : Args) (s : Setting) (l : List Setting) (h : Means a (s :: l)) (hs : tables s.dut = none ∨ ¬ Natural s) :
    ∃ e, selectTracksCall ev flags eval S maxEvents cs tables a = ⟨some [], some e⟩ := by
  unfold selectTracksCall
  rw [(C174_meaning a _).mpr h]
  dsimp only
  unfold loop oneDut
  cases hT : tables s.dut with
  | none => exact ⟨_, rfl⟩
  | some T =>
    rw [hT] at hs
    have hn : ¬ Natural s := hs.resolve_left (by simp)
    have hc : criteria s = none := by
      by_contra hc
      apply hn
      unfold criteria at hc
      have hb : ∀ {o : Option (List Int)} {x : List Nat}, bits o = some x → ∀ i ∈ o.getD [], 0 ≤ i := by
        intro o x ho i hi
        cases o with
        | none => simp at hi
        | some l =>
          unfold bits at ho
          dsimp only at ho
          split at ho
          · cases ho
          · rename_i hany
            rw [List.any_eq_true] at hany
            by_contra hneg
            exact hany ⟨i, hi, by rw [decide_eq_true_eq]; omega⟩
      split at hc
      · rename_i h1 h2 h3 h4 h5
        intro o ho
        simp only [List.mem_cons, List.not_mem_nil, or_false] at ho
        rcases ho with rfl | rfl | rfl | rfl | rfl
        · exact hb h1
        · exact hb h2
        · exact hb h3
        · exact hb h4
        · exact hb h5
      · exact absurd rfl hc
    dsimp only
    rw [hc]
    exact ⟨_, rfl⟩

/-- C175, false: a DUT that is selected twice is accepted by the tests; the call raises an exception after the output file has been replaced. -/
theorem C175_twice (ev : R → Int) (flags : R → Flags) (eval : String → R → Bool) (S : Sampling) (maxEvents cs : Nat)
    (tables : Int → Option (List R)) (a : Args) (l : List Setting) (h : Means a l) (hd : ¬ (l.map Setting.dut).Nodup) :
    ∃ out e, selectTracksCall ev flags eval S maxEvents cs tables a = ⟨some out, some e⟩ := by
  unfold selectTracksCall
  rw [(C174_meaning a _).mpr h]
  dsimp only
  have key : ∀ (l : List Setting) (done : List Int), (loop ev flags eval S maxEvents cs tables done l).2 = none →
      (l.map Setting.dut).Nodup ∧ ∀ s ∈ l, s.dut ∉ done := by
    intro l
    induction l with
    | nil => intros; simp
    | cons s r ih =>
      intro done he
      unfold loop at he
      split at he
      · cases he
      · rename_i t ho
        obtain ⟨h1, h2⟩ := ih _ he
        have hnot : s.dut ∉ done := by
          intro hmem
          unfold oneDut at ho
          split at ho
          · cases ho
          · split at ho
            · cases ho
            · rw [if_pos hmem] at ho
              cases ho
        refine ⟨?_, ?_⟩
        · rw [List.map_cons, List.nodup_cons]
          refine ⟨?_, h1⟩
          intro hmem
          obtain ⟨s', hs', e⟩ := List.mem_map.mp hmem
          exact h2 s' hs' (e ▸ List.mem_cons_self)
        · intro s' hs'
          rcases List.mem_cons.mp hs' with rfl | hs'
          · exact hnot
          · exact fun hmem => h2 s' hs' (List.mem_cons_of_mem _ hmem)
  cases he : (loop ev flags eval S maxEvents cs tables [] l).2 with
  | none => exact absurd (key l [] he).1 hd
  | some e => exact ⟨_, e, rfl⟩
end

/-! ### Examples -/

/-- Arguments for DUTs 1 and 3: hits in DUT 0 and 2 for both, isolated hits in DUT 3 for the second only, no query for the first. -/
def exampleArgs : Args where
  select := .each [some 1, some 3]
  hit := .entries [.number 0, .number 2]
  isoHit := .entries [.none, .list [3]]
  query := .each [some "", some "track_chi2 < 5"]

example : settings exampleArgs = .ok [⟨1, some [0, 2], some [], some [], some [], none, ""⟩, ⟨3, some [0, 2], some [], some [], some [], some [3], "track_chi2 < 5"⟩] := rfl

example : Means exampleArgs [⟨1, some [0, 2], some [], some [], some [], none, ""⟩, ⟨3, some [0, 2], some [], some [], some [], some [3], "track_chi2 < 5"⟩] :=
  (C174_meaning _ _).mp rfl

def exampleTables : Int → Option (List (Int × Nat × Nat × Nat)) := fun d => if d = 1 ∨ d = 3 then some [(0, 5, 0, 1), (1, 1, 0, 1), (2, 13, 0, 2)] else none

/-- Rows: event number, hit flag, isolated hit flag, chi2; event numbers of the output. The first DUT keeps two tracks, the second one. -/
example : (selectTracksCall (fun r => r.1) (fun r => ⟨r.2.1, 0, 0, r.2.2.1⟩) (fun _ r => decide (r.2.2.2 < 2)) BTA.Props.firstEvents 0 10 exampleTables exampleArgs).output.map
      (fun o => o.map fun p => (p.1, p.2.map Prod.fst)) = some [(1, [0, 2]), (3, [0])] := by
  decide +kernel

/-- A list for one DUT only, although two are selected: refused. A negative number: the output is replaced. -/
example (S : Sampling) : (selectTracksCall (fun r : Int => r) (fun _ => ⟨1, 0, 0, 0⟩) (fun _ _ => true) S 0 10 (fun _ => some [])
      { select := .each [some 1, some 3], hit := .entries [.list [0]] }) = ⟨none, some .args⟩ ∧
    (selectTracksCall (fun r : Int => r) (fun _ => ⟨1, 0, 0, 0⟩) (fun _ _ => true) S 0 10 (fun _ => some [])
      { select := .each [some 1, some 3], hit := .entries [.number (-1)] }) = ⟨some [], some .shift⟩ := ⟨rfl, rfl⟩

end BTA.SelArgs.Props
