import Verif.Model.Optimizer

/-!
# Specification vocabulary: training

A training run is a sequence of optimizer updates. Each update sees the present values of the chosen parameters and the
derivatives of the loss there, and nothing else.
-/

namespace Meent.Spec

open Optim

variable {ι V S : Type} [DecidableEq ι]

/-- The values `v` with the chosen parameters replaced. -/
def setParams (v : ι → Option V) : List (ι × V) → ι → Option V
  | [] => v
  | (i, x) :: rest => setParams (Function.update v i (some x)) rest

/-- The chosen parameters of `v`. -/
def paramsOf (v : ι → Option V) (pois : List ι) : List V := pois.filterMap v

/-- One update: optimizer state and values afterwards. `D` gives the derivatives. -/
def update (opt : Opt S V) (D : (ι → Option V) → ι → Option V) (pois : List ι) (x : S × (ι → Option V)) : S × (ι → Option V) :=
  let r := opt.step x.1 (pois.filterMap fun i => (x.2 i).map fun y => (y, D x.2 i))
  (r.1, setParams x.2 (pois.zip r.2))

/-- Values after `n` updates with a fresh optimizer. -/
def trained (opt : Opt S V) (D : (ι → Option V) → ι → Option V) (pois : List ι) (n : ℕ) (v : ι → Option V) : ι → Option V :=
  ((update opt D pois)^[n] (opt.init (paramsOf v pois), v)).2

/-- The optimizer returns as many parameters as it gets. -/
def KeepsLength (opt : Opt S V) : Prop := ∀ s l, (opt.step s l).2.length = l.length

/-- Chosen parameters: at least one, none twice, all of them attributes. -/
def Choice (v : ι → Option V) (pois : List ι) : Prop := pois ≠ [] ∧ pois.Nodup ∧ ∀ i ∈ pois, (v i).isSome

/-- Whatever values the attributes of `v₀` take: the loss can be computed, and it depends on a chosen parameter. -/
def Trainable (P : Problem ι V) (pois : List ι) (v₀ : ι → Option V) : Prop :=
  ∀ v, (∀ i, (v i).isSome = (v₀ i).isSome) → (∃ l, P.forward v = .ok l) ∧ ∃ i ∈ pois, (P.deriv v i).isSome

end Meent.Spec
