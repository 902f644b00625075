import Verif.Ctap.Step

/-!
# Specification of the signature counter
-/
namespace Verif.Ctap

/-- The history since the last factory reset (latest event first). -/
def sinceErased (log : List Ev) : List Ev := log.takeWhile (· != .erased)

/-- If both events are responses with signature counters: the counter of a later assertion is greater, and that of a
later registration is not smaller. -/
def Increases (later earlier : Ev) : Prop :=
  ∀ n k m k', later = .counter n k → earlier = .counter m k' → (k = .assertion → m < n) ∧ (k = .registration → m ≤ n)

end Verif.Ctap
