import Verif.Store.Model

/-!
# Specification: interrupted changes of words, and positions
-/
namespace Verif.Store

/-- A word in flash while it is changed from `old` to `new`: each bit is the old one or the new one. It covers programming (which
clears bits) and erasing (which sets bits). -/
def Interrupted (old new w : Word) : Prop := ∀ i, i < 32 → w.getLsbD i = old.getLsbD i ∨ w.getLsbD i = new.getLsbD i

/-- A log position, as the code explains it: how often the page was erased before, the page, the word in the page. -/
structure Place where
  cycle : Nat
  page : Nat
  word : Nat
deriving DecidableEq

/-- The place is in the storage. -/
def Place.Valid (F : Format) (a : Place) : Prop := a.page < F.N ∧ a.word < F.Q

/-- The place that is written after this one. -/
def Place.next (F : Format) (a : Place) : Place :=
  if a.word + 1 < F.Q then ⟨a.cycle, a.page, a.word + 1⟩
  else if a.page + 1 < F.N then ⟨a.cycle, a.page + 1, 0⟩
  else ⟨a.cycle + 1, 0, 0⟩

/-- The place after `n` words. -/
def Place.after (F : Format) (a : Place) : Nat → Place
  | 0 => a
  | n + 1 => (a.after F n).next F

/-- The place is before another one: the cycle counts most, then the page. -/
def Place.Before (a b : Place) : Prop :=
  a.cycle < b.cycle ∨ (a.cycle = b.cycle ∧ (a.page < b.page ∨ (a.page = b.page ∧ a.word < b.word)))

end Verif.Store
