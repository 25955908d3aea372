import Verif.Model.Telescope
/-
Specifications for the telescope configuration: content of a value by paths, DUTs and telescopes that a program can build, the DUT
that the last successful operation stored under an id.
-/
namespace BTA.Tel.Spec
variable {F : Type} [PyFloat F]

/-- A step into a nested value. -/
inductive Step | key (k : Key) | index (n : ℕ)

/-- What is found at a place of a nested value. Lists and tuples are not distinguished, the order of the entries of a dictionary is
not seen. -/
inductive Node (F : Type)
  | null | bool (b : Bool) | int (i : ℤ) | flt (x : F) | text (s : String) | seq (length : ℕ) | dict

/-- What a value is. -/
def node : Value F → Node F
  | .null => .null
  | .bool b => .bool b
  | .int i => .int i
  | .flt x => .flt x
  | .text s => .text s
  | .list l => .seq l.length
  | .tuple l => .seq l.length
  | .dict _ => .dict

/-- The element of a dictionary, a list or a tuple. -/
def child : Value F → Step → Option (Value F)
  | .dict d, .key k => d.lookup k
  | .list l, .index n => l[n]?
  | .tuple l, .index n => l[n]?
  | _, _ => none

/-- What is found at the end of a path. -/
def content (v : Value F) : List Step → Option (Node F)
  | [] => some (node v)
  | s :: p => (child v s).bind (fun w => content w p)

/-- DUTs that a program can build: constructed by a class and changed by assigning attributes. -/
inductive BuiltDut [LinearOrder F] : Dut F → Prop
  | new {c kw d} : construct c kw = .ok d → BuiltDut d
  | set {d a v d'} : BuiltDut d → setAttr d a v = .ok d' → BuiltDut d'

/-- Telescopes that a program can build with integer ids. -/
inductive Made [LinearOrder F] : Telescope F → Prop
  | new : Made Telescope.new
  | frame {t a v f} : Made t → a ∈ frameAttributes → frameSet t.frame a v = .ok f → Made { t with frame := f }
  | add {t c i kw t'} : Made t → t.addDut c i kw = .ok t' → Made t'
  | item {t d} (i : ℤ) : Made t → BuiltDut d → Made (t.setItem (.int i) d)
  | load {t arg files} : Made t → Made (t.load arg files).1
  | save {t arg keep files r} : Made t → t.save arg keep files = .ok r → Made r.1

/-- The dictionaries of a value have distinct keys, as every dictionary of Python. -/
inductive Distinct : Value F → Prop
  | null : Distinct .null
  | bool {b} : Distinct (.bool b)
  | int {i} : Distinct (.int i)
  | flt {x} : Distinct (.flt x)
  | text {s} : Distinct (.text s)
  | list {l} : (∀ v ∈ l, Distinct v) → Distinct (.list l)
  | tuple {l} : (∀ v ∈ l, Distinct v) → Distinct (.tuple l)
  | dict {d} : (d.map Prod.fst).Nodup → (∀ e ∈ d, Distinct e.2) → Distinct (.dict d)

/-- Operations that store a DUT in a telescope. -/
inductive Op (F : Type)
  | add (cls : String) (id : ℤ) (kw : List (Key × Value F))
  | set (id : ℤ) (d : Dut F)

/-- A program that performs operations one after the other; an operation that raises is skipped. -/
def run [LinearOrder F] (t : Telescope F) : List (Op F) → Telescope F
  | [] => t
  | .add cls id kw :: ops => match t.addDut cls (.int id) kw with
    | .ok t' => run t' ops
    | .error _ => run t ops
  | .set id d :: ops => run (t.setItem (.int id) d) ops

/-- The DUT that an operation stores, if it stores one for id `i`: an instance of the named class with the given arguments; the name
is `DUTi` if none is given. -/
def stored [LinearOrder F] (i : ℤ) : Op F → Option (Dut F)
  | .set id d => if id = i then some d else none
  | .add cls id kw =>
    if id = i then
      match classOf cls with
      | .error _ => none
      | .ok c =>
        let named := if (kw.lookup (.text "name")).isSome then kw else kw ++ [(.text "name", .text ("DUT" ++ toString id))]
        match construct c named with
        | .error _ => none
        | .ok d => some d
    else none

/-- The DUT stored by the last operation that stored one for id `i`. -/
def latest [LinearOrder F] (i : ℤ) (ops : List (Op F)) : Option (Dut F) :=
  ops.reverse.findSome? (stored i)

end BTA.Tel.Spec
