/-
What is said on standard error about the items that a search found (C87): by the documented kinds of items and
layouts of structs (`Spec/World`).
-/
import Verif.Spec.World
import Verif.Model.Live

namespace Btrd.Spec

/-- the key of an item, as the warning gives it -/
def keyWarned (h : Header) : Warned := ⟨h.objectid, h.ty, h.offset⟩

/-- **the warnings about these items**: one for every item that is of no kind the tool knows, in order, up to the first
item that is of a known kind but cannot be read (which is the end of the search) -/
inductive Heard : List Item → List Warned → Prop where
  | nil : Heard [] []
  | skip {h payload its ws} : (∀ name, ¬ HoldsStruct h name) → Heard its ws →
      Heard ((h, payload) :: its) (keyWarned h :: ws)
  | item {h payload s out its ws} : s ∈ structs → HoldsStruct h s.name → ReadAs payload s out → Heard its ws →
      Heard ((h, payload) :: its) ws
  | stops {h payload name its} : HoldsStruct h name → (∀ s out, s ∈ structs → s.name = name → ¬ ReadAs payload s out) →
      Heard ((h, payload) :: its) []

/-- **an honest log**: a search that finds items is followed at once by the warnings about them, one that finds
nothing because it fails by none, and there are no other warnings -/
inductive Honest : List Event → Prop where
  | nil : Honest []
  | searched {fs a items ws log} : Heard items ws → Honest log →
      Honest (.searched fs a (.ok items) :: (ws.map .warned ++ log))
  | failed {fs a e log} : Honest log → Honest (.searched fs a (.error e) :: log)
  | read {fs i j r log} : Honest log → Honest (.read fs i j r :: log)
  | opened {p r log} : Honest log → Honest (.opened p r :: log)

/-- the warnings of a log -/
def warnings (log : List Event) : List Warned :=
  log.filterMap fun e => match e with
    | .warned w => some w
    | _ => none

end Btrd.Spec
