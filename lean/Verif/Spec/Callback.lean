import Verif.Base
/-!
# Specification: functions that call a method for the elements of an array

`σ` is everything a running program can read and change.  An array is known by its current elements: `array : σ → List
(Option α)`, where `none` is `undef`.  A callback takes an element, may change the program's state, and answers or throws.
-/
namespace SPVM.Spec.Callback

/-- A callback. -/
abbrev Callback (σ α β : Type) := Option α → Prog σ β

/-- The callback does not change the length of the array.  In SPVM nothing does. -/
def KeepsLength (array : σ → List (Option α)) (callback : Callback σ α β) : Prop :=
  ∀ x s, (array (callback x s).2).length = (array s).length

/-- `Calls array callback i n s log e s'`: from the state `s` on, the elements number `i`, `i + 1`, ..., `n - 1`, each as it
is when its turn comes, are given to the callback.  `log` lists the elements and the answers in this order and `s'` is the
state at the end.  If `e = none` every call was answered.  If `e = some m` the call after those in the log threw `m`, and
there were no calls after it. -/
inductive Calls (array : σ → List (Option α)) (callback : Callback σ α β) (n : Nat) :
    Nat → σ → List (Option α × β) → Option String → σ → Prop
  | done (i s) : i = n → Calls array callback n i s [] none s
  | answer {i s x b s₁ log e s'} : i < n → (array s)[i]? = some x → callback x s = (.ok b, s₁) →
      Calls array callback n (i + 1) s₁ log e s' → Calls array callback n i s ((x, b) :: log) e s'
  | throw {i s x m s'} : i < n → (array s)[i]? = some x → callback x s = (.die m, s') →
      Calls array callback n i s [] (some m) s'

/-- The value may be stored in an array that accepts the objects `accept`.  `undef` may always be stored. -/
def Fits (accept : α → Bool) (x : Option α) : Prop := ∀ v, x = some v → accept v = true

end SPVM.Spec.Callback
