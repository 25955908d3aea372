import Verif.Spec.CorrelationPlot
import Verif.Props.Correlate
/-
C226: the pages of `plot_correlations`.
-/
namespace BTA.CorrPlot
open BTA.Corr BTA.Prealign Spec

/-! ### Names -/

theorem digitRuns_digits (ds : List Char) (hd : ∀ c ∈ ds, c.isDigit = true) (cur s : List Char) :
    digitRuns cur (ds ++ s) = digitRuns (ds.reverse ++ cur) s := by
  induction ds generalizing cur with
  | nil => rfl
  | cons c ds ih =>
    rw [List.cons_append, digitRuns, if_pos (hd c (by simp)), ih (fun c' h => hd c' (by simp [h]))]
    simp

theorem digitRuns_other (p : List Char) (hp : ∀ c ∈ p, c.isDigit = false) (s : List Char) : digitRuns [] (p ++ s) = digitRuns [] s := by
  induction p with
  | nil => rfl
  | cons c p ih =>
    rw [List.cons_append, digitRuns, if_neg (by rw [hp c (by simp)]; simp), ih (fun c' h => hp c' (by simp [h]))]
    rfl

theorem digitRuns_end (cur p : List Char) (hc : cur ≠ []) (hp : ∀ c ∈ p, c.isDigit = false) : digitRuns cur p = [cur.reverse] := by
  have he : cur.isEmpty = false := by cases cur with | nil => exact absurd rfl hc | cons => rfl
  cases p with
  | nil => rw [digitRuns, he]; rfl
  | cons c p =>
    have := digitRuns_other p (fun c' h => hp c' (by simp [h])) []
    rw [List.append_nil] at this
    rw [digitRuns, if_neg (by rw [hp c (by simp)]; simp), he, this]
    rfl

theorem digits_isDigit (n : Nat) : ∀ c ∈ Nat.toDigits 10 n, c.isDigit = true := fun _ hc => Nat.isDigit_of_mem_toDigits (by decide) (by decide) hc

theorem digits_ne (n : Nat) : Nat.toDigits 10 n ≠ [] := Nat.toDigits_ne_nil

theorem numbers_nodeName (x red : Bool) (r d : Nat) : numbers (nodeName x red r d) = [r, d] := by
  have h : digitRuns [] (nodeName x red r d) = [Nat.toDigits 10 r, Nat.toDigits 10 d] := by
    unfold nodeName
    rw [List.append_assoc, List.append_assoc, List.append_assoc, digitRuns_other _ (by cases x <;> decide), digitRuns_digits _ (digits_isDigit r),
      List.append_nil, List.singleton_append, digitRuns, if_neg (by decide), digitRuns_digits _ (digits_isDigit d), List.append_nil,
      digitRuns_end _ _ (by simpa using digits_ne d) (by cases red <;> decide), List.reverse_reverse, List.reverse_reverse]
    rw [if_neg (by simpa using digits_ne r)]
    rfl
  unfold numbers
  rw [h]
  simp [Nat.ofDigitChars_ten_toDigits]

theorem not_digit {c : Char} (h : c.isDigit = false) (n : Nat) : c ∉ Nat.toDigits 10 n := fun hc => by
  rw [digits_isDigit n c hc] at h; cases h

theorem direction_nodeName (x red : Bool) (r d : Nat) : decide ("Correlation_x".toList <:+: nodeName x red r d) = x := by
  cases x with
  | true =>
    have h : "Correlation_x".toList <+: "Correlation_x_".toList := by decide
    exact decide_eq_true ((((h.trans (List.prefix_append _ _)).trans (List.prefix_append _ _)).trans (List.prefix_append _ _)).trans
      (List.prefix_append _ _)).isInfix
  | false =>
    refine decide_eq_false fun h => ?_
    have hx : 'x' ∈ nodeName false red r d := h.subset (by decide)
    unfold nodeName at hx
    simp only [List.mem_append] at hx
    rcases hx with (((hx | hx) | hx) | hx) | hx
    · revert hx; decide
    · exact not_digit (by decide) r hx
    · revert hx; decide
    · exact not_digit (by decide) d hx
    · cases red <;> revert hx <;> decide

theorem kind_nodeName (x red : Bool) (r d : Nat) : decide ("background".toList <:+: nodeName x red r d) = red := by
  cases red with
  | true =>
    have h : "background".toList <:+ "_reduced_background".toList := by decide
    exact decide_eq_true (h.trans (List.suffix_append _ _)).isInfix
  | false =>
    refine decide_eq_false fun h => ?_
    have hx : 'b' ∈ nodeName x false r d := h.subset (by decide)
    unfold nodeName at hx
    simp only [List.mem_append] at hx
    rcases hx with (((hx | hx) | hx) | hx) | hx
    · cases x <;> revert hx <;> decide
    · exact not_digit (by decide) r hx
    · revert hx; decide
    · exact not_digit (by decide) d hx
    · revert hx; decide

/-! ### One node -/

noncomputable def arrOf (res : ℝ × ℝ) (w : Which) : Arr :=
  ⟨extentOf w.refAxis (if w.x then res.1 else res.2), extentOf w.dutAxis (if w.x then res.1 else res.2), w.dutAxis.bins, w.refAxis.bins, w.value⟩

noncomputable def nodeOfW (res : ℝ × ℝ) (w : Which) : HNode := nodeOf res w.entry w.x w.reduced

theorem nodeOfW_eq (res : ℝ × ℝ) (w : Which) :
    nodeOfW res w = ⟨nodeName w.x w.reduced w.entry.ref.toNat w.entry.dut.toNat, some (arrOf res w)⟩ := by
  obtain ⟨e, x, red⟩ := w
  cases x <;> cases red <;> rfl

theorem allZero_iff (res : ℝ × ℝ) (w : Which) : allZero (arrOf res w) = true ↔ ¬ w.Filled := by
  unfold allZero Which.Filled
  rw [List.all_eq_true]
  simp only [List.all_eq_true, List.mem_range, decide_eq_true_eq, arrOf]
  constructor
  · rintro h ⟨i, hi, j, hj, hv⟩
    exact absurd (of_decide_eq_true (h i hi j hj)) (not_le.mpr hv)
  · intro h i hi j hj
    by_contra hv
    exact h ⟨i, hi, j, hj, not_le.mp fun h' => hv (decide_eq_true h')⟩

theorem range_of_extent {s res : ℝ} {n : Nat} (hn : 0 < n) (i : Nat) :
    (s + (i : ℝ) * ((s + n * res - s) / n), s + ((i : ℝ) + 1) * ((s + n * res - s) / n)) = (s + i * res, s + (i + 1) * res) := by
  have h : (s + n * res - s) / (n : ℝ) = res := by
    have : (n : ℝ) ≠ 0 := by exact_mod_cast hn.ne'
    field_simp
    ring
  rw [h]

/-- A name for every DUT of the telescope. -/
def Enough (names : Option (List (List Char))) (n : Nat) : Prop := ∀ l, names = some l → n ≤ l.length

theorem dutName_some {names : Option (List (List Char))} {n : Nat} (hn : Enough names n) {i : Int} (hi : i.toNat < n) :
    ∃ s, dutName names i.toNat = some s ∧ IsName names i s := by
  cases names with
  | none =>
    refine ⟨_, rfl, ?_⟩
    show _ = "DUT".toList ++ (toString i.toNat).toList
    rw [show (toString i.toNat).toList = Nat.toDigits 10 i.toNat from Nat.toList_repr]
  | some l =>
    have hl := hn l rfl
    cases l with
    | nil => simp at hl; omega
    | cons a l =>
      exact ⟨(a :: l)[i.toNat]'(by omega), List.getElem?_eq_getElem (by omega), List.getElem?_eq_getElem (by omega)⟩

theorem plotNode_empty (names : Option (List (List Char))) (res : ℝ × ℝ) (w : Which) (hf : ¬ w.Filled) :
    plotNode names (nodeOfW res w) = .ok none := by
  unfold plotNode
  rw [nodeOfW_eq, numbers_nodeName]
  simp only
  rw [if_pos ((allZero_iff res w).mpr hf)]

theorem plotNode_filled {names : Option (List (List Char))} {n : Nat} (hn : Enough names n) (res : ℝ × ℝ) (w : Which) (hf : w.Filled)
    (hr : w.entry.ref.toNat < n) (hd : w.entry.dut.toNat < n) : ∃ p, plotNode names (nodeOfW res w) = .ok (some p) ∧ Shows names res w p := by
  obtain ⟨sd, hd1, hd2⟩ := dutName_some hn hd
  obtain ⟨sr, hr1, hr2⟩ := dutName_some hn hr
  obtain ⟨i0, hi0, j0, hj0, -⟩ := id hf
  refine ⟨⟨w.x, w.reduced, sr, sd, ((arrOf res w).dutExtent, (arrOf res w).refExtent), w.refAxis.bins, w.dutAxis.bins, fun r c => w.value c r⟩, ?_,
    rfl, rfl, hd2, hr2, rfl, rfl, fun _ _ => rfl, fun i => range_of_extent (by omega) i, fun j => range_of_extent (by omega) j⟩
  unfold plotNode
  rw [nodeOfW_eq, numbers_nodeName]
  simp only
  rw [if_neg (fun h => (allZero_iff res w).mp h hf), hd1, hr1]
  simp only
  rw [direction_nodeName, kind_nodeName]
  rfl

/-! ### All nodes -/

open Classical in
theorem plot_all {names : Option (List (List Char))} {n : Nat} (hn : Enough names n) (res : ℝ × ℝ) (rest : List HNode) (ws : List Which)
    (hw : ∀ w ∈ ws, w.entry.ref.toNat < n ∧ w.entry.dut.toNat < n) :
    ∃ pages, plotCorrelations names (ws.map (nodeOfW res) ++ rest) =
        (pages ++ (plotCorrelations names rest).1, (plotCorrelations names rest).2) ∧
      List.Forall₂ (Shows names res) (ws.filter fun w => decide w.Filled) pages := by
  induction ws with
  | nil => exact ⟨[], by simp, .nil⟩
  | cons w ws ih =>
    obtain ⟨pages, h1, h2⟩ := ih (fun w' h => hw w' (by simp [h]))
    obtain ⟨g1, g2⟩ := hw w (by simp)
    by_cases hf : w.Filled
    · obtain ⟨p, hp, hs⟩ := plotNode_filled hn res w hf g1 g2
      refine ⟨p :: pages, ?_, ?_⟩
      · rw [List.map_cons, List.cons_append, plotCorrelations, hp]
        simp only
        rw [h1]
        rfl
      · rw [List.filter_cons_of_pos (by simpa using hf)]
        exact .cons hs h2
    · refine ⟨pages, ?_, ?_⟩
      · rw [List.map_cons, List.cons_append, plotCorrelations, plotNode_empty names res w hf]
        exact h1
      · rw [List.filter_cons_of_neg (by simpa using hf)]
        exact h2

theorem nodes_histograms (res : ℝ × ℝ) (out : List Entry) : out.flatMap (nodesOf res) = (histograms out).map (nodeOfW res) := by
  unfold histograms
  rw [List.map_flatMap]
  rfl

theorem perm_map_lift {α β : Type} (f : α → β) {l : List β} {as : List α} (h : l.Perm (as.map f)) : ∃ bs : List α, bs.Perm as ∧ l = bs.map f := by
  have : (fun (x : List β) (y : List α) => x.Perm (y.map f)) l as := h
  rw [← List.eq_map_comp_perm] at this
  obtain ⟨bs, h1, h2⟩ := this
  exact ⟨bs, h2, h1⟩

theorem getDut_lt {tel : List Plane} {i : Int} {p : Plane} (h : getDut tel i = some p) : i.toNat < tel.length := by
  unfold getDut at h
  split at h
  · exact (List.getElem?_eq_some_iff.mp h).1
  · cases h

theorem entry_range {tel : List Plane} {files : List Table} {res : ℝ × ℝ} {select refs : Option (List Int)} {cs : Nat} {lead : Leading} {o : Bool}
    {out : List Entry} (hcs : 0 < cs) (hs : ∀ t ∈ files, BTA.Spec.SortedBy Row.ev t.rows)
    (h : correlate tel files res select refs cs lead = (o, .ok out)) {w : Which} (hw : w ∈ histograms out) :
    w.entry ∈ out ∧ w.entry.ref.toNat < tel.length ∧ w.entry.dut.toNat < tel.length := by
  have hm : w.entry ∈ out := by
    obtain ⟨e, he, hw⟩ := List.mem_flatMap.mp hw
    simp only [List.mem_cons, List.not_mem_nil, or_false] at hw
    rcases hw with rfl | rfl | rfl | rfl <;> exact he
  obtain ⟨p, t, hp, -, j, hj, -⟩ := entry_spec hcs hs h w.entry hm
  exact ⟨hm, getDut_lt hp, getDut_lt hj.dut⟩

theorem forall₂_right {α β : Type} {R : α → β → Prop} {l : List α} {m : List β} (h : List.Forall₂ R l m) {b : β} (hb : b ∈ m) : ∃ a ∈ l, R a b := by
  induction h with
  | nil => cases hb
  | cons hr _ ih =>
    rcases List.mem_cons.mp hb with rfl | hb
    · exact ⟨_, by simp, hr⟩
    · obtain ⟨a, ha, hr⟩ := ih hb
      exact ⟨a, by simp [ha], hr⟩

theorem forall₂_left {α β : Type} {R : α → β → Prop} {l : List α} {m : List β} (h : List.Forall₂ R l m) {a : α} (ha : a ∈ l) : ∃ b ∈ m, R a b := by
  induction h with
  | nil => cases ha
  | cons hr _ ih =>
    rcases List.mem_cons.mp ha with rfl | ha
    · exact ⟨_, by simp, hr⟩
    · obtain ⟨b, hb, hr⟩ := ih ha
      exact ⟨b, by simp [hb], hr⟩

open Classical in
/-- C226: `plot_correlations` with a file of `correlate`: every histogram with an entry above zero has exactly one page, the others have none, and each page
shows its histogram: the title, the names of the DUTs and every bin at its place. -/
theorem C226_pages_partial (tel : List Plane) (files : List Table) (res : ℝ × ℝ) (select refs : Option (List Int)) (cs : Nat) (lead : Leading) (o : Bool)
    (out : List Entry) (hcs : 0 < cs) (hs : ∀ t ∈ files, BTA.Spec.SortedBy Row.ev t.rows)
    (h : correlate tel files res select refs cs lead = (o, .ok out)) (nodes : List HNode) (hnodes : nodes.Perm (out.flatMap (nodesOf res))) (names : Option (List (List Char))) (hn : ∀ l, names = some l → tel.length ≤ l.length) :
    ∃ pages, plotCorrelations names nodes = (pages, none) ∧ ∃ order : List Which,
      order.Perm ((histograms out).filter fun w => decide w.Filled) ∧ List.Forall₂ (Shows names res) order pages := by
  rw [nodes_histograms] at hnodes
  obtain ⟨ws, hws, rfl⟩ := perm_map_lift _ hnodes
  obtain ⟨pages, h1, h2⟩ := plot_all hn res [] ws fun w hw => (entry_range hcs hs h (hws.subset hw)).2
  rw [List.append_nil] at h1
  exact ⟨pages, by rw [h1]; simp [plotCorrelations], _, hws.filter _, h2⟩

/-- C226: the pages show the hits. With all hits on their sensors, every pixel of a page of a histogram (with all entries, not with reduced background) is
the number of pairs of hits of the same event with the position of the DUT hit in the horizontal range of this pixel and that of the reference hit in its
vertical range. -/
theorem C226_counts_partial (tel : List Plane) (files : List Table) (res : ℝ × ℝ) (select refs : Option (List Int)) (cs : Nat) (lead : Leading) (o : Bool)
    (out : List Entry) (hr : 0 < res.1 ∧ 0 < res.2) (hcs : 0 < cs) (hp : ∀ p ∈ tel, Corr.Spec.Proper p)
    (hs : ∀ t ∈ files, BTA.Spec.SortedBy Row.ev t.rows)
    (hon : ∀ i p t, getDut tel i = some p → getFile (selectDuts tel select) files i = some t → Corr.Spec.AllOnSensor p t)
    (h : correlate tel files res select refs cs lead = (o, .ok out)) (nodes : List HNode) (hnodes : nodes.Perm (out.flatMap (nodesOf res)))
    (names : Option (List (List Char))) (hn : ∀ l, names = some l → tel.length ≤ l.length) :
    ∃ pages, plotCorrelations names nodes = (pages, none) ∧ ∀ p ∈ pages, p.reduced = false → ∃ r d P Q S T,
      IsName names r p.refName ∧ IsName names d p.dutName ∧ getDut tel r = some P ∧ getDut tel d = some Q ∧
      getFile (selectDuts tel select) files r = some S ∧ getFile (selectDuts tel select) files d = some T ∧
      ∀ row col, p.image row col = pairsInside P Q S T (if p.xDirection then 0 else 1) (columnRange p col) (rowRange p row) := by
  obtain ⟨pages, h1, order, h2, h3⟩ := C226_pages_partial tel files res select refs cs lead o out hcs hs h nodes hnodes names hn
  refine ⟨pages, h1, fun p hpg hred => ?_⟩
  obtain ⟨w, hw, hsh⟩ := forall₂_right h3 hpg
  have hw' := (List.mem_filter.mp (h2.subset hw)).1
  obtain ⟨P, Q, S, T, hP, hQ, hS, hT, hc⟩ := Corr.C86_counts tel files res select refs cs lead o out hr hcs hp hs hon h w.entry
    (entry_range hcs hs h hw').1
  refine ⟨w.entry.ref, w.entry.dut, P, Q, S, T, hsh.ref, hsh.dut, hP, hQ, hS, hT, fun row col => ?_⟩
  rw [hsh.values, hsh.columns, hsh.rows, hsh.direction]
  obtain ⟨e, x, red⟩ := w
  have hk := hsh.kind
  rw [hred] at hk
  subst hk
  cases x with
  | true => exact congrArg Int.ofNat ((hc col row).1.trans (Corr.pairCount_congr _ _ _ _ fun _ _ _ _ => decide_eq_decide.mpr Iff.rfl))
  | false => exact congrArg Int.ofNat ((hc col row).2.trans (Corr.pairCount_congr _ _ _ _ fun _ _ _ _ => decide_eq_decide.mpr Iff.rfl))

/-- The hypotheses are met by the two DUTs of C86, with names for them: there is at least one page, and its pixel (1, 1) shows the only pair of hits. -/
example (lead : Leading) : ∃ out, correlate Corr.demoTel Corr.demoFiles (100, 100) none (some [0]) 10 lead = (true, .ok out) ∧
    ∃ pages, plotCorrelations (some ["A".toList, "B".toList]) (out.flatMap (nodesOf (100, 100))) = (pages, none) ∧
      ∃ p ∈ pages, p.xDirection = true ∧ p.reduced = false ∧ p.image 1 1 = 1 ∧ p.image 0 1 = 0 := by
  classical
  obtain ⟨out, h⟩ := Corr.demo_success lead
  obtain ⟨e, he, hc, hb1, hb2⟩ := Corr.demo_histogram h
  obtain ⟨pages, h1, order, h2, h3⟩ := C226_pages_partial Corr.demoTel Corr.demoFiles (100, 100) none (some [0]) 10 lead true out (by norm_num)
    (fun t ht => (Corr.demo_sorted t ht).1) h _ (.refl _) (some ["A".toList, "B".toList]) (fun l hl => by cases hl; simp [Corr.demoTel])
  have hw : (⟨e, true, false⟩ : Which) ∈ order := h2.symm.subset (List.mem_filter.mpr ⟨List.mem_flatMap.mpr ⟨e, he, by simp⟩,
    decide_eq_true ⟨1, by simp [Which.dutAxis, hb1], 1, by simp [Which.refAxis, hb2], by simp [Which.value, hc]⟩⟩)
  obtain ⟨p, hp, hsh⟩ := forall₂_left h3 hw
  exact ⟨out, h, pages, h1, p, hp, hsh.direction, hsh.kind, by rw [hsh.values]; simp [Which.value, hc], by rw [hsh.values]; simp [Which.value, hc]⟩

/-- C226 fails for a file that `correlate` has returned: it has the group with the arguments of the call, and the function ends with an exception (IndexError),
wherever this group is in the order of the nodes. -/
theorem C226_again_fails (tel : List Plane) (files : List Table) (res : ℝ × ℝ) (select refs : Option (List Int)) (cs : Nat) (lead : Leading) (o : Bool)
    (out : List Entry) (hcs : 0 < cs) (hs : ∀ t ∈ files, BTA.Spec.SortedBy Row.ev t.rows)
    (h : correlate tel files res select refs cs lead = (o, .ok out)) (nodes : List HNode)
    (hnodes : nodes.Perm (argumentsNode :: out.flatMap (nodesOf res))) (names : Option (List (List Char)))
    (hn : ∀ l, names = some l → tel.length ≤ l.length) : (plotCorrelations names nodes).2 = some .name := by
  obtain ⟨a, b, rfl⟩ := List.append_of_mem (hnodes.symm.subset (List.mem_cons_self))
  have hab : (a ++ b).Perm (out.flatMap (nodesOf res)) :=
    (List.perm_middle.symm.trans hnodes).cons_inv
  rw [nodes_histograms] at hab
  obtain ⟨ws, hws, e⟩ := perm_map_lift _ hab
  obtain ⟨wa, wb, rfl, ha, -⟩ := List.append_eq_map_iff.mp e
  obtain ⟨pages, h1, -⟩ := plot_all hn res (argumentsNode :: b) wa fun w hw => (entry_range hcs hs h (hws.subset (by simp [hw]))).2
  rw [← ha, h1]
  rfl

/-- The hypotheses are met by the two DUTs of C86. -/
example (lead : Leading) : ∃ out, correlate Corr.demoTel Corr.demoFiles (100, 100) none (some [0]) 10 lead = (true, .ok out) ∧
    (plotCorrelations none (out.flatMap (nodesOf (100, 100)) ++ [argumentsNode])).2 = some .name := by
  obtain ⟨out, h⟩ := Corr.demo_success lead
  exact ⟨out, h, C226_again_fails Corr.demoTel Corr.demoFiles (100, 100) none (some [0]) 10 lead true out (by norm_num)
    (fun t ht => (Corr.demo_sorted t ht).1) h _ (List.perm_append_singleton _ _) none (fun l hl => by cases hl)⟩

end BTA.CorrPlot
