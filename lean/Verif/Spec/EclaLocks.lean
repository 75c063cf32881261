import Verif.Model.EclaLocks
/-! Specification of deadlock freedom. -/

namespace Dtn.Spec.EclaLocks
open Dtn.EclaLocks

/-- All calls have returned. -/
def Finished (ts : List Thread) : Prop := ∀ t ∈ ts, t.rest = []

/-- No thread can do anything although some call has not returned. -/
def Deadlock (ts : List Thread) : Prop := ¬ Finished ts ∧ ∀ i, step ts i = none

/-- No bundle is being handed to a module. -/
def NoSubmission (cs : List Call) : Prop := ∀ ls, Call.submit ls ∉ cs

/-- Apart from connections coming and going, only bundles are being handed to modules. -/
def OnlySubmissions (cs : List Call) : Prop :=
  ∀ c ∈ cs, (∃ ls, c = .submit ls) ∨ (∃ l, c = .connect l) ∨ (∃ l b, c = .disconnect l b) ∨ c = .unknown

end Dtn.Spec.EclaLocks
