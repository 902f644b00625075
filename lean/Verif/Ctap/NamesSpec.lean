import Verif.Ctap.PropsKey

/-!
# What a registration stores
-/
namespace Verif.Ctap

/-- `t` is the longest text that is a beginning of `s` and has at most `max` bytes. -/
structure LongestPrefix (max : Nat) (s t : Bytes) : Prop where
  isPrefix : t <+: s
  text : Verif.Utf8.valid t = true
  short : t.length ≤ max
  longest : ∀ t', t' <+: s → Verif.Utf8.valid t' = true → t'.length ≤ max → t' <+: t

/-- The same for an optional text. -/
def OptPrefix (max : Nat) : Option Bytes → Option Bytes → Prop
  | none, t => t = none
  | some s, t => ∃ t', t = some t' ∧ LongestPrefix max s t'

/-- The user fields of a request are text. -/
def UserEntity.IsText (u : UserEntity) : Prop :=
  ∀ s, (u.name = some s ∨ u.displayName = some s ∨ u.icon = some s) → Verif.Utf8.valid s = true

end Verif.Ctap
