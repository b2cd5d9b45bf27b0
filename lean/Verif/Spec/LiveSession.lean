/-
The rules of the process (C88) in a world that changes at any time, also while an entry is evaluated: as `Spec/Streams`,
with programs run by the rules of `Spec/Moments`. The lines on standard error are those besides the warnings, which are
the subject of C87.
-/
import Verif.Spec.Moments
import Verif.Spec.Streams

namespace Btrd.Spec

/-- **What one event does** in a changing world. -/
inductive LiveHappens (wraps : Prop) (cleaned : Str → Str) (ω : Live) :
    Names → State → ReplEvent → Names → State → List ErrLine → ProcStatus → Prop where
  /-- where no program is run (there is no entry, it cannot be read, or it is refused) the world does not matter -/
  | idle {D σ e D' σ' l r} : (∀ s p, e = .line s → Spells (cleaned s) p → ¬ AcceptedL D False p) →
      Happens wraps cleaned (ω.host 0) D σ e D' σ' l r → LiveHappens wraps cleaned ω D σ e D' σ' l r
  /-- an accepted program is run; if it fails there is a message, -/
  | runs {D σ s p D' σ' t} : Spells (cleaned s) p → AcceptedL D False p → Learns D p D' →
      GoesAll ω wraps True p σ 0 σ' (.done t) → LiveHappens wraps cleaned ω D σ (.line s) D' σ' [] .running
  | fails {D σ s p D' σ' m} : Spells (cleaned s) p → AcceptedL D False p → Learns D p D' →
      GoesAll ω wraps True p σ 0 σ' (.failed m) → LiveHappens wraps cleaned ω D σ (.line s) D' σ' [.error m] .running
  /-- and `quit` ends the session. -/
  | quits {D σ s p D' σ'} : Spells (cleaned s) p → AcceptedL D False p → Learns D p D' →
      GoesAll ω wraps True p σ 0 σ' .quit → LiveHappens wraps cleaned ω D σ (.line s) D' σ' [] .over

/-- **A session**: its events up to the one that ends it -/
inductive LiveConverses (wraps : Prop) (cleaned : Str → Str) :
    Names → State → List LiveTick → Names → State → List ErrLine → ProcStatus → Prop where
  | waits {D σ} : LiveConverses wraps cleaned D σ [] D σ [] .running
  | next {D σ t ts D₁ σ₁ l D' σ' ls r} : LiveHappens wraps cleaned t.world D (drifted σ t.drift) t.event D₁ σ₁ l .running →
      LiveConverses wraps cleaned D₁ σ₁ ts D' σ' ls r → LiveConverses wraps cleaned D σ (t :: ts) D' σ' (l ++ ls) r
  | ends {D σ t ts D' σ' l r} : LiveHappens wraps cleaned t.world D (drifted σ t.drift) t.event D' σ' l r → r ≠ .running →
      LiveConverses wraps cleaned D σ (t :: ts) D' σ' l r

/-- **A session seen from outside**, see `Seen` -/
inductive LiveSeen (wraps : Prop) (cleaned : Str → Str) (D : Names) (σ₀ : State) (saved : Bool)
    (ts : List LiveTick) : Ended → Prop where
  | mute {σ} : Outputs banner σ₀ σ .failed → LiveSeen wraps cleaned D σ₀ saved ts ⟨σ.sink.out, [.panicked], .panicked⟩
  | waits {σ D' σ' l} : Outputs banner σ₀ σ .done → LiveConverses wraps cleaned D σ ts D' σ' l .running →
      LiveSeen wraps cleaned D σ₀ saved ts ⟨σ'.sink.out, l, .running⟩
  | over {σ D' σ' l} : Outputs banner σ₀ σ .done → LiveConverses wraps cleaned D σ ts D' σ' l .over → saved = true →
      LiveSeen wraps cleaned D σ₀ saved ts ⟨σ'.sink.out, l, .success⟩
  | unsaved {σ D' σ' l} : Outputs banner σ₀ σ .done → LiveConverses wraps cleaned D σ ts D' σ' l .over → saved = false →
      LiveSeen wraps cleaned D σ₀ saved ts ⟨σ'.sink.out, l ++ [.error none], .failure⟩
  | panics {σ D' σ' l} : Outputs banner σ₀ σ .done → LiveConverses wraps cleaned D σ ts D' σ' l .panicked →
      LiveSeen wraps cleaned D σ₀ saved ts ⟨σ'.sink.out, l, .panicked⟩

/-- **A script run seen from outside**, see `Ran` -/
inductive LiveRan (wraps : Prop) (cleaned : Str → Str) (ω : Live) (D : Names) (σ₀ : State) :
    Option Bytes → Ended → Prop where
  | unreadable {file} : (∀ s, file ≠ some (encoded s)) → LiveRan wraps cleaned ω D σ₀ file ⟨[], [.error none], .failure⟩
  | noProgram {s m} : Unread (cleaned s) m →
      LiveRan wraps cleaned ω D σ₀ (some (encoded s)) ⟨σ₀.sink.out, [.error (some m), inScript], .failure⟩
  | refused {s p m} : Spells (cleaned s) p → RefusedAll D False p m →
      LiveRan wraps cleaned ω D σ₀ (some (encoded s)) ⟨σ₀.sink.out, [.error (some m), inScript], .failure⟩
  | ends {s p σ h} : Spells (cleaned s) p → AcceptedL D False p → GoesAll ω wraps False p σ₀ 0 σ h →
      ((∃ t, h = .done t) ∨ h = .quit) → LiveRan wraps cleaned ω D σ₀ (some (encoded s)) ⟨σ.sink.out, [], .success⟩
  | fails {s p σ m} : Spells (cleaned s) p → AcceptedL D False p → GoesAll ω wraps False p σ₀ 0 σ (.failed m) →
      LiveRan wraps cleaned ω D σ₀ (some (encoded s)) ⟨σ.sink.out, [.error m, inScript], .failure⟩

end Btrd.Spec
