/-
Which filesystem the requests of a program go to (C95).
-/
import Verif.Model.Live

namespace Btrd.Spec

/-- **An entry whose requests go to the filesystem in use**: `InUse fuel ω t cur log t' cur'` says that with the filesystem
`cur` in use (`none`: there is none) at the moment `t` these things may happen, one after the other, and that then it is the
moment `t'` and `cur'` is in use. Every search and every read is of the filesystem in use, as it is at that moment, and is
answered by it; if none is in use there is no search and no read; opening another one replaces it if it succeeds, and if it
fails the old one stays in use. -/
inductive InUse (fuel : Nat) (ω : Live) : Nat → Option Fs → List Event → Nat → Option Fs → Prop where
  | nil {t cur} : InUse fuel ω t cur [] t cur
  | warned {t cur w log t' cur'} : InUse fuel ω t cur log t' cur' → InUse fuel ω t cur (.warned w :: log) t' cur'
  | searched {t fs a log t' cur'} : InUse fuel ω (t + 1) (some fs) log t' cur' →
      InUse fuel ω t (some fs) (.searched (ω.drift t fs) a ((ω.drift t fs).search fuel a) :: log) t' cur'
  | read {t fs i j log t' cur'} : InUse fuel ω (t + 1) (some fs) log t' cur' →
      InUse fuel ω t (some fs) (.read (ω.drift t fs) i j ((ω.drift t fs).getBytes i j) :: log) t' cur'
  | opened {t cur path fs log t' cur'} : Fs.new (ω.host t) path = .ok fs → InUse fuel ω (t + 1) (some fs) log t' cur' →
      InUse fuel ω t cur (.opened path (.ok fs) :: log) t' cur'
  | refused {t cur path e log t' cur'} : Fs.new (ω.host t) path = .error e → InUse fuel ω (t + 1) cur log t' cur' →
      InUse fuel ω t cur (.opened path (.error e) :: log) t' cur'

/-- **A session whose requests go to the filesystem in use**: entry by entry; between two entries the world changes, and
so does the filesystem in use, but it stays the one in use. -/
inductive InUseAll (fuel : Nat) : Option Fs → List LiveTick → List Event → Option Fs → Prop where
  | ends {cur ts} : InUseAll fuel cur ts [] cur
  | next {cur t ts log n cur' log' cur''} : InUse fuel t.world 0 (cur.map t.drift) log n cur' →
      InUseAll fuel cur' ts log' cur'' → InUseAll fuel cur (t :: ts) (log ++ log') cur''

/-- **What is in use when the tool starts**: the filesystem of the working directory, if that can be opened as one -/
inductive StartsWith (h : Host) : Option Fs → Prop where
  | here {dir fs} : h.cwd = some dir → Fs.new h dir = .ok fs → StartsWith h (some fs)
  | nowhere : (∀ dir fs, h.cwd = some dir → Fs.new h dir ≠ .ok fs) → StartsWith h none

/-- a filesystem was opened -/
def OpensFs (e : Event) : Prop := ∃ path fs, e = .opened path (.ok fs)

/-- something was asked of this filesystem -/
def AsksFs (g : Fs) (e : Event) : Prop := (∃ a r, e = .searched g a r) ∨ ∃ i j r, e = .read g i j r

end Btrd.Spec
