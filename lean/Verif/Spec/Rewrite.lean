/-
Vocabulary for replacing statements in a program by others (C104).
-/
import Verif.Spec.Exchange

namespace Btrd.Spec

/-- **two runs of statements mean the same**: before a program runs, one is rejected where the other is, with the same
error, and leaves the same names known; and run from the same state at the same moment in any world they make the same
requests with the same warnings, take the same time, and end with the same state, output and result -/
structure SameEffect (p p' : List Stmt) : Prop where
  checked : ∀ known, analyzeStmts p' known = analyzeStmts p known
  evaluated : ∀ cfg st, Usual st → ∀ fuel ω t, (evalStmtsT cfg p' st).live fuel ω t = (evalStmtsT cfg p st).live fuel ω t

/-- **the second run of statements stands in for the first**: it is accepted wherever the first is and leaves the same
names known, and whenever the first ends without an error, the second ends in the same way, with the same requests,
warnings and time. Where the first fails, the second may do anything -/
structure StandsIn (p p' : List Stmt) : Prop where
  checked : ∀ known, (analyzeStmts p known).2 = .ok () → analyzeStmts p' known = analyzeStmts p known
  evaluated : ∀ cfg st, Usual st → ∀ fuel ω t, (∀ f, ((evalStmtsT cfg p st).live fuel ω t).result.2 ≠ .fail f) →
    (evalStmtsT cfg p' st).live fuel ω t = (evalStmtsT cfg p st).live fuel ω t

/-- **the same at the end of a block**, where the names that are known afterwards in the block do not matter -/
structure EndsIn (p p' : List Stmt) : Prop where
  checked : ∀ known, (analyzeStmts p known).2 = .ok () → (analyzeStmts p' known).2 = .ok ()
  evaluated : ∀ cfg st, Usual st → ∀ fuel ω t, (∀ f, ((evalStmtsT cfg p st).live fuel ω t).result.2 ≠ .fail f) →
    (evalStmtsT cfg p' st).live fuel ω t = (evalStmtsT cfg p st).live fuel ω t

mutual
/-- **a statement has no `break` or `continue` of its own**: those in it belong to loops in it -/
def NoJump : Stmt → Prop
  | .brk | .cont => False
  | .ite _ t f => NoJumps t ∧ NoJumps f
  | _ => True
/-- the same for all statements of a block -/
def NoJumps : List Stmt → Prop
  | [] => True
  | s :: p => NoJump s ∧ NoJumps p
end

section
variable (R B : List Stmt → List Stmt → Prop)

mutual
/-- **the second statement is the first with some runs of statements, at any depth, replaced by related ones**; `B` is
for the ends of blocks. (The names known at the end of the first block of an `if` are still known in the second.) -/
inductive RewrittenStmt : Stmt → Stmt → Prop where
  | same (s) : RewrittenStmt s s
  | ite (c) {t t' f f'} : RewrittenProg t t' → RewrittenBlock f f' → RewrittenStmt (.ite c t f) (.ite c t' f')
  | ifOnly (c) {t t'} : RewrittenBlock t t' → RewrittenStmt (.ite c t []) (.ite c t' [])
  | while (c) {b b'} : RewrittenBlock b b' → RewrittenStmt (.while c b) (.while c b')
  | for (x r) {b b'} : RewrittenBlock b b' → RewrittenStmt (.for x r b) (.for x r b')
/-- the same for programs -/
inductive RewrittenProg : List Stmt → List Stmt → Prop where
  | nil : RewrittenProg [] []
  | cons {s s' p p'} : RewrittenStmt s s' → RewrittenProg p p' → RewrittenProg (s :: p) (s' :: p')
  | here {p p' q q'} : R p p' → RewrittenProg q q' → RewrittenProg (p ++ q) (p' ++ q')
/-- the same for blocks -/
inductive RewrittenBlock : List Stmt → List Stmt → Prop where
  | prog {p p'} : RewrittenProg p p' → RewrittenBlock p p'
  | last {q q' p p'} : RewrittenProg q q' → B p p' → RewrittenBlock (q ++ p) (q' ++ p')
end

/-- two events at the prompt: the same, or two entries that are programs, the second the first with statements replaced -/
inductive RewrittenEvent (cleaned : Str → Str) : ReplEvent → ReplEvent → Prop where
  | same (e) : RewrittenEvent cleaned e e
  | program {s s' p p'} : Spells (cleaned s) p → Spells (cleaned s') p' → RewrittenProg R B p p' →
      RewrittenEvent cleaned (.line s) (.line s')

/-- two events of a session in the same world -/
structure RewrittenTick (cleaned : Str → Str) (t t' : LiveTick) : Prop where
  drift : t'.drift = t.drift
  world : t'.world = t.world
  event : RewrittenEvent R B cleaned t.event t'.event

end

end Btrd.Spec
