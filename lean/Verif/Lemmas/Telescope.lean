import Verif.Spec.Telescope
/-
Lemmas about dictionaries, YAML values and DUTs.
-/
namespace BTA.Tel
open Spec

section Dict
variable {α β : Type}

theorem get?_put (d : List (Key × α)) (k k' : Key) (v : α) :
    get? (put d k v) k' = if k = k' then some v else get? d k' := by
  induction d with
  | nil =>
    simp only [put, get?, List.lookup]
    by_cases h : k = k' <;> simp [h, beq_iff_eq, eq_comm]
    have : (k' == k) = false := by simpa using fun h' => h h'.symm
    simp [this]
  | cons e d ih =>
    obtain ⟨a, b⟩ := e
    simp only [put]
    by_cases ha : a = k
    · subst ha
      by_cases h : a = k'
      · subst h; simp [get?, List.lookup]
      · have : (k' == a) = false := by simpa using fun h' => h h'.symm
        simp [get?, List.lookup, this, h]
    · simp only [if_neg ha]
      by_cases h : a = k'
      · subst h
        have : ¬ k = a := fun h' => ha h'.symm
        simp [get?, List.lookup, this]
      · have h2 : (k' == a) = false := by simpa using fun h' => h h'.symm
        have := ih
        simp only [get?] at this
        simp [get?, List.lookup, h2, this]

theorem get?_cons (a k : Key) (b : α) (d : List (Key × α)) :
    get? ((a, b) :: d) k = if a = k then some b else get? d k := by
  by_cases h : a = k
  · subst h; simp [get?, List.lookup]
  · have h2 : (k == a) = false := by simpa using fun h' => h h'.symm
    simp [get?, List.lookup, h2, h]

theorem keyLe_refl (k : Key) : keyLe k k = true := by
  cases k <;> simp [keyLe]

theorem get?_insertEntry (e : Key × α) (d : List (Key × α)) (k : Key) :
    get? (insertEntry e d) k = if e.1 = k then some e.2 else get? d k := by
  induction d with
  | nil => simp only [insertEntry]; exact get?_cons e.1 k e.2 []
  | cons e' d ih =>
    simp only [insertEntry]
    split
    · exact get?_cons e.1 k e.2 _
    · rename_i hle
      obtain ⟨a, b⟩ := e'
      rw [get?_cons, ih, get?_cons]
      by_cases h : a = k
      · subst h
        have : ¬ e.1 = a := by
          intro h'
          apply hle
          simp [h', keyLe_refl]
        simp [this]
      · simp [h]

theorem get?_sortEntries (d : List (Key × α)) (k : Key) : get? (sortEntries d) k = get? d k := by
  induction d with
  | nil => rfl
  | cons e d ih =>
    obtain ⟨a, b⟩ := e
    have : sortEntries ((a, b) :: d) = insertEntry (a, b) (sortEntries d) := rfl
    rw [this, get?_insertEntry, ih, get?_cons]

theorem get?_dumpOrder (d : List (Key × α)) (k : Key) : get? (dumpOrder d) k = get? d k := by
  unfold dumpOrder
  split
  · exact get?_sortEntries d k
  · rfl

theorem perm_insertEntry (e : Key × α) (d : List (Key × α)) : (insertEntry e d).Perm (e :: d) := by
  induction d with
  | nil => exact List.Perm.refl _
  | cons e' d ih =>
    simp only [insertEntry]
    split
    · exact List.Perm.refl _
    · exact (ih.cons e').trans (List.Perm.swap e e' d)

theorem perm_sortEntries (d : List (Key × α)) : (sortEntries d).Perm d := by
  induction d with
  | nil => exact List.Perm.refl _
  | cons e d ih => exact (perm_insertEntry e _).trans (ih.cons e)

theorem perm_dumpOrder (d : List (Key × α)) : (dumpOrder d).Perm d := by
  unfold dumpOrder
  split
  · exact perm_sortEntries d
  · exact List.Perm.refl _

theorem get?_isSome_iff (d : List (Key × α)) (k : Key) : (get? d k).isSome ↔ k ∈ d.map Prod.fst := by
  induction d with
  | nil => simp [get?]
  | cons e d ih =>
    obtain ⟨a, b⟩ := e
    rw [get?_cons]
    by_cases h : a = k
    · simp [h]
    · have : ¬ k = a := fun h' => h h'.symm
      rw [if_neg h, ih]; simp [this]

theorem get?_none_iff (d : List (Key × α)) (k : Key) : get? d k = none ↔ k ∉ d.map Prod.fst := by
  rw [← get?_isSome_iff]; cases get? d k <;> simp

theorem get?_mem {d : List (Key × α)} {k : Key} {v : α} (h : get? d k = some v) : (k, v) ∈ d := by
  induction d with
  | nil => simp [get?] at h
  | cons e d ih =>
    obtain ⟨a, b⟩ := e
    rw [get?_cons] at h
    by_cases h' : a = k
    · rw [if_pos h'] at h; simp at h; simp [h', h]
    · rw [if_neg h'] at h; exact List.mem_cons_of_mem _ (ih h)

theorem mem_get? {d : List (Key × α)} (hd : (d.map Prod.fst).Nodup) {k : Key} {v : α} (h : (k, v) ∈ d) :
    get? d k = some v := by
  induction d with
  | nil => simp at h
  | cons e d ih =>
    obtain ⟨a, b⟩ := e
    rw [get?_cons]
    simp only [List.map_cons, List.nodup_cons] at hd
    rcases List.mem_cons.1 h with h1 | h1
    · simp at h1; simp [h1.1, h1.2]
    · have : a ≠ k := by
        intro hak
        apply hd.1
        rw [hak]
        exact List.mem_map.2 ⟨(k, v), h1, rfl⟩
      rw [if_neg this]
      exact ih hd.2 h1

theorem keys_put (d : List (Key × α)) (k : Key) (v : α) :
    (put d k v).map Prod.fst = if k ∈ d.map Prod.fst then d.map Prod.fst else d.map Prod.fst ++ [k] := by
  induction d with
  | nil => simp [put]
  | cons e d ih =>
    obtain ⟨a, b⟩ := e
    simp only [put]
    by_cases h : a = k
    · simp [h]
    · have hk : ¬ k = a := fun h' => h h'.symm
      rw [if_neg h, List.map_cons, ih]
      by_cases hm : k ∈ d.map Prod.fst
      · rw [if_pos hm, if_pos (by simp only [List.map_cons, List.mem_cons]; exact Or.inr hm)]; rfl
      · rw [if_neg hm, if_neg (by simp only [List.map_cons, List.mem_cons]; rintro (h' | h'); exacts [hk h', hm h'])]
        simp

theorem nodup_put {d : List (Key × α)} (h : (d.map Prod.fst).Nodup) (k : Key) (v : α) :
    ((put d k v).map Prod.fst).Nodup := by
  rw [keys_put]
  split
  · exact h
  · rename_i hk
    rw [List.nodup_append]
    refine ⟨h, by simp, ?_⟩
    intro a ha b hb
    simp at hb
    subst hb
    rintro rfl
    exact hk ha

theorem mem_put {d : List (Key × α)} {k : Key} {v : α} {e : Key × α} (h : e ∈ put d k v) : e = (k, v) ∨ e ∈ d := by
  induction d with
  | nil => simp [put] at h; exact Or.inl h
  | cons e' d ih =>
    obtain ⟨a, b⟩ := e'
    simp only [put] at h
    split at h
    · rcases List.mem_cons.1 h with h | h
      · exact Or.inl h
      · exact Or.inr (List.mem_cons_of_mem _ h)
    · rcases List.mem_cons.1 h with h | h
      · exact Or.inr (h ▸ List.mem_cons_self ..)
      · rcases ih h with h | h
        · exact Or.inl h
        · exact Or.inr (List.mem_cons_of_mem _ h)

theorem get?_foldl_put (l : List (Key × α)) (f : α → β) (hl : (l.map Prod.fst).Nodup) (acc : List (Key × β)) (k : Key) :
    get? (l.foldl (fun s e => put s e.1 (f e.2)) acc) k = ((get? l k).map f <|> get? acc k) := by
  induction l generalizing acc with
  | nil => simp [get?]
  | cons e l ih =>
    obtain ⟨a, b⟩ := e
    simp only [List.map_cons, List.nodup_cons] at hl
    rw [List.foldl_cons, ih hl.2, get?_cons, get?_put]
    by_cases h : a = k
    · subst h
      have : get? l a = none := (get?_none_iff l a).2 hl.1
      simp [this]
    · simp [h]

theorem nodup_foldl_put (l : List (Key × α)) (f : α → β) (acc : List (Key × β)) (h : (acc.map Prod.fst).Nodup) :
    ((l.foldl (fun s e => put s e.1 (f e.2)) acc).map Prod.fst).Nodup := by
  induction l generalizing acc with
  | nil => exact h
  | cons e l ih => exact ih _ (nodup_put h _ _)

theorem mem_keys_foldl_put (l : List (Key × α)) (f : α → β) (acc : List (Key × β)) (k : Key)
    (h : k ∈ (l.foldl (fun s e => put s e.1 (f e.2)) acc).map Prod.fst) : k ∈ l.map Prod.fst ∨ k ∈ acc.map Prod.fst := by
  induction l generalizing acc with
  | nil => exact Or.inr h
  | cons e l ih =>
    rcases ih _ h with h1 | h1
    · exact Or.inl (List.mem_cons_of_mem _ h1)
    · rw [keys_put] at h1
      split at h1
      · exact Or.inr h1
      · rcases List.mem_append.1 h1 with h1 | h1
        · exact Or.inr h1
        · simp at h1; exact Or.inl (by rw [h1]; exact List.mem_cons_self ..)

end Dict

section Yaml
variable {F : Type}

theorem yamlDict_eq (d : List (Key × Value F)) : yamlDict d = d.map (fun e => (e.1, yaml e.2)) := by
  induction d with
  | nil => rfl
  | cons e d ih => obtain ⟨a, b⟩ := e; simp [yamlDict, ih]

theorem yamlList_eq (l : List (Value F)) : yamlList l = l.map yaml := by
  induction l with
  | nil => rfl
  | cons e d ih => simp [yamlList, ih]

theorem get?_map (d : List (Key × Value F)) (f : Value F → Value F) (k : Key) :
    get? (d.map (fun e => (e.1, f e.2))) k = (get? d k).map f := by
  induction d with
  | nil => rfl
  | cons e d ih =>
    obtain ⟨a, b⟩ := e
    rw [List.map_cons, get?_cons, get?_cons, ih]
    by_cases h : a = k <;> simp [h]

theorem get?_yaml (d : List (Key × Value F)) (k : Key) : get? (dumpOrder (yamlDict d)) k = (get? d k).map yaml := by
  rw [get?_dumpOrder, yamlDict_eq, get?_map]

theorem child_yaml (v : Value F) (s : Step) : child (yaml v) s = (child v s).map yaml := by
  cases v <;> cases s <;> simp [yaml, child, yamlList_eq]
  exact get?_yaml _ _

theorem node_yaml (v : Value F) : node (yaml v) = node v := by
  cases v <;> simp [yaml, node, yamlList_eq]

theorem content_yaml (v : Value F) (p : List Step) : content (yaml v) p = content v p := by
  induction p generalizing v with
  | nil => simp [content, node_yaml]
  | cons s p ih =>
    simp only [content, child_yaml]
    cases child v s with
    | none => rfl
    | some w => simpa using ih w

theorem keys_yaml_perm (d : List (Key × Value F)) :
    ((dumpOrder (yamlDict d)).map Prod.fst).Perm (d.map Prod.fst) := by
  have h := (perm_dumpOrder (yamlDict d)).map Prod.fst
  rw [yamlDict_eq] at h ⊢
  simpa [List.map_map, Function.comp_def] using h

end Yaml

end BTA.Tel
