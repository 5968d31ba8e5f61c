import Verif.SpecMutex

/-!
# Specification vocabulary for `Clear` among concurrent calls
-/

namespace GB
namespace Mutex

variable {n : Nat} {μ S R : Type} {T : Type} [GoNum T]

/-- An execution all of whose states satisfy `P`. -/
inductive StepsIn (mode : μ → Mode) (body : μ → Prog S R) (P : Conf n μ S R → Prop) :
    Conf n μ S R → Conf n μ S R → Prop
  | refl {c} : P c → StepsIn mode body P c c
  | tail {c c' c''} : StepsIn mode body P c c' → Step mode body c' c'' → P c'' → StepsIn mode body P c c''

/-- While a call of `Clear` is inside, no other call that holds the lock for reading is, except calls of
`Clear`. -/
def Conf.ClearApart (c : Conf n (Method T) S R) : Prop :=
  ∀ i j m, c.Inside i .clear → c.Inside j m → m.mode = .read → m = .clear

end Mutex
end GB
