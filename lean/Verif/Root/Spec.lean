import Verif.Root.Model

/-!
# Specification vocabulary for the root finder
-/

namespace QM.Root

variable {K : Type} [Field K] [LinearOrder K]

namespace Spec

/-- The function (a `FnMut` with hidden state) always answers as `f` does, whatever its state. -/
def Answers {σ : Type} (func : K → σ → Outcome K × σ) (f : K → Outcome K) : Prop :=
  ∀ x st, (func x st).1 = f x

/-- The same function, also counting its calls. -/
def counted {σ : Type} (func : K → σ → Outcome K × σ) : K → (Nat × σ) → Outcome K × (Nat × σ) :=
  fun x st => ((func x st.2).1, (st.1 + 1, (func x st.2).2))

/-- The same function, also remembering whether it ever failed, and how it failed last. -/
def remembered {σ : Type} (func : K → σ → Outcome K × σ) : K → (Option Fault × σ) → Outcome K × (Option Fault × σ) :=
  fun x st =>
    ((func x st.2).1, (match (func x st.2).1 with | .error e => some e | .ok _ => st.1), (func x st.2).2)

/-- The same function, also writing down where it is evaluated, latest first. -/
def logged {σ : Type} (func : K → σ → Outcome K × σ) : K → (List K × σ) → Outcome K × (List K × σ) :=
  fun x st => ((func x st.2).1, (x :: st.1, (func x st.2).2))

end Spec

end QM.Root
