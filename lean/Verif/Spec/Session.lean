/-
The rules of a session at the prompt (C81): what each entry does, by the rules of the language
(`Spec/Rules`) and of its static checks (`Spec/Analysis`).
-/
import Verif.Spec.Rules
import Verif.Spec.Analysis
import Verif.Model.Runtime

namespace Btrd.Spec

/-- The variables known after an entry: those it assigns at its outermost level, up to and including the
first statement that is refused. -/
inductive Learns : Names → List Stmt → Names → Prop where
  | all {D} : Learns D [] D
  | next {D s ss D'} : Accepted D False s → Learns (D.with s.gains) ss D' → Learns D (s :: ss) D'
  | refused {D s ss} : ¬ Accepted D False s → Learns D (s :: ss) (D.with s.gains)

/-- A session: `D` are the known variables and `σ` the state when it begins, `program` says which program an
entry is, if any. It ends `exited` at the first `quit` or end of input, else it is `running` and waits
after the last event. -/
inductive Talks (W : World) (program : Str → Option (List Stmt)) :
    Names → State → List ReplEvent → Names → State → ReplStatus → Prop where
  | waits {D σ} : Talks W program D σ [] D σ .running
  /-- Ctrl-C and read errors do nothing -/
  | noise {D σ e es D' σ' r} : e = .interrupted ∨ e = .otherError → Talks W program D σ es D' σ' r →
      Talks W program D σ (e :: es) D' σ' r
  | eof {D σ es} : Talks W program D σ (.eof :: es) D σ .exited
  /-- an entry that is no program does nothing -/
  | unreadable {D σ s es D' σ' r} : program s = none → Talks W program D σ es D' σ' r →
      Talks W program D σ (.line s :: es) D' σ' r
  /-- an entry that is refused is not run -/
  | refused {D σ s p es D₁ D' σ' r} : program s = some p → ¬ AcceptedL D False p → Learns D p D₁ →
      Talks W program D₁ σ es D' σ' r → Talks W program D σ (.line s :: es) D' σ' r
  /-- any other is run; whether it succeeds or fails, the session goes on -/
  | runs {D σ s p es D₁ σ₁ o D' σ' r} : program s = some p → AcceptedL D False p → Learns D p D₁ →
      RunsAll W p σ σ₁ o → o = .done ∨ o = .failed → Talks W program D₁ σ₁ es D' σ' r →
      Talks W program D σ (.line s :: es) D' σ' r
  | quits {D σ s p es D₁ σ₁} : program s = some p → AcceptedL D False p → Learns D p D₁ →
      RunsAll W p σ σ₁ .quit → Talks W program D σ (.line s :: es) D₁ σ₁ .exited

end Btrd.Spec
