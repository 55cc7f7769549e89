import Verif.Model.Performance

/-!
# What is expected of the averages
-/

namespace Humoto.Spec

open Performance

variable {K : Type} [Field K]

/-- `v` contains for each of `m` iterations the mean of the times of kind `k` over `n` simulations with the measures `ms`. -/
structure MeanTimes (n m : ℕ) (ms : ℕ → List (Measure K)) (k : Fin 3) (v : Vec K) : Prop where
  size : v.n = m
  mean : ∀ j, j < m → (n : K) * v.e j = ((List.range n).map fun i => ((ms i).map fun t => t k).getD j 0).sum

end Humoto.Spec
