import Verif.Spec.Silicon
import Mathlib.Data.Nat.Choose.Basic
import Mathlib.Topology.Algebra.InfiniteSum.Basic
import Mathlib.Topology.Instances.Real.Lemmas

/-!
# Means over the random events in a sensor

Each of the following is the mean of `f` of the number of electrons that are measured.
-/

namespace Optika

/-- `n` electrons, each of which is collected with probability `p`. -/
noncomputable def binomialMean (n : ℕ) (p : ℝ) (f : ℕ → ℝ) : ℝ :=
  ∑ k ∈ Finset.range (n + 1), n.choose k * p ^ k * (1 - p) ^ (n - k) * f k

/-- `n` pairs with probability `p n`, for `n` at most `N`. -/
noncomputable def pairMean (N : ℕ) (p : ℕ → ℝ) (f : ℕ → ℝ) : ℝ :=
  ∑ n ∈ Finset.range (N + 1), p n * f n

/-- One absorbed photon: it is absorbed at a random depth, over which `depth` takes the mean,
creates a random number of pairs, and each electron is collected with a probability `η z` that
depends on the depth. -/
noncomputable def photonMean (depth : (ℝ → ℝ) → ℝ) (η : ℝ → ℝ) (N : ℕ) (p : ℕ → ℝ)
    (f : ℕ → ℝ) : ℝ :=
  depth fun z => pairMean N p fun n => binomialMean n (η z) f

/-- `k` independent photons. -/
noncomputable def photonsMean (depth : (ℝ → ℝ) → ℝ) (η : ℝ → ℝ) (N : ℕ) (p : ℕ → ℝ) :
    ℕ → (ℕ → ℝ) → ℝ
  | 0, f => f 0
  | k + 1, f => photonMean depth η N p fun m => photonsMean depth η N p k fun s => f (m + s)

/-- A number of photons with the Poisson distribution of mean `photons`. -/
noncomputable def exposureMean (depth : (ℝ → ℝ) → ℝ) (η : ℝ → ℝ) (N : ℕ) (p : ℕ → ℝ)
    (photons : ℝ) (f : ℕ → ℝ) : ℝ :=
  ∑' k : ℕ, Real.exp (-photons) * photons ^ k / k.factorial * photonsMean depth η N p k f

end Optika
