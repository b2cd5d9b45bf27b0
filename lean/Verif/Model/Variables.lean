/-
Model of `src/lang/functions.rs` and `src/lang/variables.rs` (the constants themselves are in
`Model/Definitions`).
-/
import Verif.Model.Base

namespace Btrd

/-- `Function` (functions.rs:6-14) -/
inductive Function where
  | key | keyOf | search | typeOf | len | hist | str
deriving DecidableEq, Repr

/-- `Display for Function` (functions.rs:16-28) -/
def Function.display : Function → Str
  | .key => s!' "key"
  | .keyOf => s!' "keyof"
  | .search => s!' "search"
  | .typeOf => s!' "typeof"
  | .len => s!' "len"
  | .hist => s!' "hist"
  | .str => s!' "str"

/-- `FUNCTIONS` (functions.rs:30-40) -/
def functions : List Function := [.key, .search, .typeOf, .keyOf, .len, .hist, .str]

/-- One scope, `BTreeMap<Identifier, T>` (variables.rs:10). Scopes are only looked up and inserted into,
never iterated, so a finite map is represented by its lookup function. -/
abbrev Scope (T : Type) := Str → Option T

/-- the empty scope, `BTreeMap::default()` (variables.rs:18, 35) -/
def Scope.empty {T : Type} : Scope T := fun _ => none

/-- `BTreeMap::insert` (variables.rs:21, 28, 72) -/
def Scope.set {T : Type} (s : Scope T) (k : Str) (v : T) : Scope T :=
  fun k' => if k' = k then some v else s k'

/-- `Variables<T>` (variables.rs:9-11). The Rust vector has the innermost scope last; this list has it
first. -/
abbrev Vars (T : Type) := List (Scope T)

namespace Vars

variable {T : Type}

/-- `push_scope` (variables.rs:34-36) -/
def push (vs : Vars T) : Vars T := Scope.empty :: vs

/-- `pop_scope` (variables.rs:38-41): asserts that there is a scope -/
def pop : Vars T → R (Vars T)
  | [] => R.panic
  | _ :: vs => .ok vs

/-- `get` (variables.rs:43-51) -/
def get : Vars T → Str → Option T
  | [], _ => none
  | s :: vs, k =>
    match s k with
    | some v => some v
    | none => get vs k

/-- The search loop of `insert` (variables.rs:64-69): overwrite in the innermost scope that has the
name; `none` if no scope has it. -/
def overwrite : Vars T → Str → T → Option (Vars T)
  | [], _, _ => none
  | s :: vs, k, v =>
    match s k with
    | some _ => some (s.set k v :: vs)
    | none =>
      match overwrite vs k v with
      | some vs' => some (s :: vs')
      | none => none

/-- `insert` (variables.rs:63-73) -/
def insert (vs : Vars T) (k : Str) (v : T) : R (Vars T) :=
  match overwrite vs k v with
  | some vs' => .ok vs'
  | none =>
    match vs with
    | [] => R.panic
    | s :: vs' => .ok (s.set k v :: vs')

/-- Writing through the reference returned by `get_mut` (variables.rs:53-61): apply `f` to the value in
the innermost scope that has the name. `none` if there is no such variable. -/
def modify {ε : Type} (f : T → Except ε T) : Vars T → Str → Option (Except ε (Vars T))
  | [], _ => none
  | s :: vs, k =>
    match s k with
    | some v =>
      match f v with
      | .ok v' => some (.ok (s.set k v' :: vs))
      | .error e => some (.error e)
    | none =>
      match modify f vs k with
      | some (.ok vs') => some (.ok (s :: vs'))
      | some (.error e) => some (.error e)
      | none => none

end Vars

end Btrd
