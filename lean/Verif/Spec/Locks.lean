import Verif.Model.Locks
/-! Specification of progress: which calls may run at the same time, and when they have returned. -/

namespace Dtn.Spec.Locks
open Dtn.Locks

/-- All calls have returned. -/
def Finished (ts : List Thread) : Prop := ∀ t ∈ ts, t.rest = []

/-- No thread can do anything although some call has not returned. -/
def Deadlock (ts : List Thread) : Prop := ¬ Finished ts ∧ ∀ i, step ts i = none

/-- Call number `i` has returned. -/
def Returned (ts : List Thread) (i : Nat) : Prop := ∃ t, ts[i]? = some t ∧ t.rest = []

/-- From here on call number `i` never returns, whatever the scheduler does. -/
def Never (ts : List Thread) (i : Nat) : Prop := ∀ js us, run ts js = some us → ¬ Returned us i

/-- Nobody looks at the start page and the daemon has started. -/
def NoStartPage (cs : List Call) : Prop := ∀ c ∈ cs, c ≠ .indexPage ∧ ∀ a n b m d, c ≠ .startup a n b m d

/-- The janitor meets no dynamic peer. -/
def NoDynamicPeer (cs : List Call) : Prop := ∀ ks ps, Call.janitor ks ps ∈ cs → Kind.dynamic ∉ ks

/-- No bundle is being handed to an external module. -/
def NoModuleSubmission (cs : List Call) : Prop := ∀ ls, Call.ecla (.submit ls) ∉ cs

/-- Of the operations of external modules only bundles handed to them and connections coming and going. -/
def OnlyModuleSubmissions (cs : List Call) : Prop :=
  ∀ c, Call.ecla c ∈ cs → (∃ ls, c = .submit ls) ∨ (∃ l, c = .connect l) ∨ (∃ l b, c = .disconnect l b) ∨ c = .unknown

/-- The number of lock operations of some calls. -/
def size (cs : List Call) : Nat := (cs.map fun c => c.acts.length).sum

end Dtn.Spec.Locks
