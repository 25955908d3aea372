import Verif.Lemmas.MergeClusters
/-
Reading a whole table in chunks with default bounds: everything the loops over chunks need.
-/
namespace BTA
open Spec BTA.Merge BTA.Props

variable {α : Type} {ev : α → Int} {T : List α}

/-- The yielded indices are the numbers of rows delivered so far. -/
def Indexed : Nat → List (List α × Nat) → Prop
  | _, [] => True
  | off, (d, idx) :: rest => idx = off + d.length ∧ d ≠ [] ∧ Indexed idx rest

theorem indexed_dataLoop (hs : SortedBy ev T) (stopEvent : Option Int) (cs stop cur : Nat) (hcs : 0 < cs)
    (hstop : stop ≤ T.length) : Indexed cur (dataLoop ev T stopEvent cs stop cur).items := by
  generalize hL : (dataLoop ev T stopEvent cs stop cur).items = L
  induction L generalizing cur with
  | nil => trivial
  | cons it L ih =>
    obtain ⟨d, idx⟩ := it
    obtain ⟨h1, h2, h3, h4, h5, h6, h7, h8⟩ := dataLoop_chunks hs stopEvent cs stop cur hcs hstop [] d idx L hL
    exact ⟨by simpa using h6, h1, ih idx (by rw [h8])⟩

theorem dataAligned_default (cs : Nat) : dataAligned ev T { chunkSize := cs } = dataLoop ev T none cs T.length 0 := by
  simp [dataAligned, boundsReversed]

/-- Reading a sorted table completely: either an event has at least `chunk_size` rows and "chunk size too small" is raised, or
the chunks are the table, separated at event borders. -/
theorem chunks_default (hs : SortedBy ev T) (cs : Nat) (hcs : 0 < cs) :
    let g := dataAligned ev T { chunkSize := cs }
    Separated ev g.items ∧ Indexed 0 g.items ∧
    ((g.err = some .chunkTooSmall ∧ ∃ e, cs ≤ multiplicity ev T e) ∨ (g.err = none ∧ g.items.flatMap Prod.fst = T)) := by
  refine ⟨dataAligned_separated hs _ hcs rfl (by simp), ?_, ?_⟩
  · rw [dataAligned_default]
    exact indexed_dataLoop hs none cs _ 0 hcs (Nat.le_refl _)
  · have h := dataLoop_spec hs none cs T.length 0 hcs (Nat.le_refl _)
    have h2 := C01_no_loss hs cs hcs
    rw [dataAligned_default] at *
    rcases h.1 with h1 | ⟨h1, e, he⟩
    · exact .inr ⟨h1, h2.2.1 h1⟩
    · exact .inl ⟨h1, e, by simpa [multiplicity] using he⟩

theorem chunks_ok (hs : SortedBy ev T) (cs : Nat) (hcs : 0 < cs) (hm : ∀ e, multiplicity ev T e < cs) :
    (dataAligned ev T { chunkSize := cs }).err = none := by
  rcases (chunks_default hs cs hcs).2.2 with ⟨-, e, he⟩ | ⟨h, -⟩
  · have := hm e; omega
  · exact h

end BTA
