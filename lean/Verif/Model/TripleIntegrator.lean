import Verif.Model.Eigentools

/-!
# Triple integrator, core/include/rigid_body/triple_integrator.h

The template parameter `t_number_of_integrators` is the argument `n`. Matrices are filled with the comma initialiser of Eigen, a
list of rows here.
-/

namespace Humoto

variable {K : Type}

/-- `v + w`; sizes which do not match are undefined behaviour. -/
def Vec.add [Add K] (v w : Vec K) : Res (Vec K) :=
  if v.n = w.n then .ok ⟨v.n, fun i => v.e i + w.e i⟩ else .error .ub

/-- `A * x + B * u`: the use of the matrices, triple_integrator.h:20-35. -/
def affine [AddCommMonoid K] [Mul K] (A : Mat K) (x : Vec K) (B : Mat K) (u : Vec K) : Res (Vec K) := do
  let a ← A.mulVec x
  let b ← B.mulVec u
  a.add b

namespace TripleIntegrator

variable [Field K]

/-- `getAJerk`, triple_integrator.h:51-60. -/
def getAJerk (n : ℕ) (T : K) : Res (Mat K) :=
  makeBlockDiagonalCopies (Mat.ofRows 3 [
    [1, T, T * T / 2],
    [0, 1, T],
    [0, 0, 1]]) n

/-- `getAAcc`, triple_integrator.h:65-74. -/
def getAAcc (n : ℕ) (T : K) : Res (Mat K) :=
  makeBlockDiagonalCopies (Mat.ofRows 3 [
    [1, T, T * T / 3],
    [0, 1, T / 2],
    [0, 0, 0]]) n

/-- `getAVel`, triple_integrator.h:78-87. -/
def getAVel (n : ℕ) (T : K) : Res (Mat K) :=
  makeBlockDiagonalCopies (Mat.ofRows 3 [
    [1, 2 * T / 3, T * T / 6],
    [0, 0, 0],
    [0, -2 / T, -1]]) n

/-- `getAPos`, triple_integrator.h:91-100. -/
def getAPos (n : ℕ) (T : K) : Res (Mat K) :=
  makeBlockDiagonalCopies (Mat.ofRows 3 [
    [0, 0, 0],
    [-3 / T, -2, -T / 2],
    [-6 / (T * T), -6 / T, -2]]) n

/-- `getAsAcc`, triple_integrator.h:116-126. -/
def getAsAcc (n : ℕ) (T Ts : K) : Res (Mat K) :=
  makeBlockDiagonalCopies (Mat.ofRows 3 [
    [1, Ts, -(Ts * Ts * Ts - 3 * T * Ts * Ts) / (6 * T)],
    [0, 1, -(Ts * Ts - 2 * T * Ts) / (2 * T)],
    [0, 0, -(Ts - T) / T]]) n

/-- `getAsVel`, triple_integrator.h:130-140. -/
def getAsVel (n : ℕ) (T Ts : K) : Res (Mat K) :=
  makeBlockDiagonalCopies (Mat.ofRows 3 [
    [1, -(Ts * Ts * Ts - 3 * T * T * Ts) / (3 * T * T), -(2 * Ts * Ts * Ts - 3 * T * Ts * Ts) / (6 * T)],
    [0, -(Ts * Ts - T * T) / (T * T), -(Ts * Ts - T * Ts) / T],
    [0, -(2 * Ts) / (T * T), -(2 * Ts - T) / T]]) n

/-- `getAsPos`, triple_integrator.h:144-154. -/
def getAsPos (n : ℕ) (T Ts : K) : Res (Mat K) :=
  makeBlockDiagonalCopies (Mat.ofRows 3 [
    [-(Ts * Ts * Ts - T * T * T) / (T * T * T), -(Ts * Ts * Ts - T * T * Ts) / (T * T), -(Ts * Ts * Ts - T * Ts * Ts) / (2 * T)],
    [-(3 * Ts * Ts) / (T * T * T), -(3 * Ts * Ts - T * T) / (T * T), -(3 * Ts * Ts - 2 * T * Ts) / (2 * T)],
    [-(6 * Ts) / (T * T * T), -(6 * Ts) / (T * T), -(3 * Ts - T) / T]]) n

/-- `getBJerk`, triple_integrator.h:172-181. -/
def getBJerk (n : ℕ) (T : K) : Res (Mat K) :=
  makeBlockDiagonalCopies (Mat.ofRows 1 [[T * T * T / 6], [T * T / 2], [T]]) n

/-- `getBAcc`, triple_integrator.h:186-195. -/
def getBAcc (n : ℕ) (T : K) : Res (Mat K) :=
  makeBlockDiagonalCopies (Mat.ofRows 1 [[T * T / 6], [T / 2], [1]]) n

/-- `getBVel`, triple_integrator.h:199-208. -/
def getBVel (n : ℕ) (T : K) : Res (Mat K) :=
  makeBlockDiagonalCopies (Mat.ofRows 1 [[T / 3], [1], [2 / T]]) n

/-- `getBPos`, triple_integrator.h:212-221. -/
def getBPos (n : ℕ) (T : K) : Res (Mat K) :=
  makeBlockDiagonalCopies (Mat.ofRows 1 [[1], [3 / T], [6 / (T * T)]]) n

/-- `getBsAcc`, triple_integrator.h:236-246. -/
def getBsAcc (n : ℕ) (T Ts : K) : Res (Mat K) :=
  makeBlockDiagonalCopies (Mat.ofRows 1 [[Ts * Ts * Ts / (6 * T)], [Ts * Ts / (2 * T)], [Ts / T]]) n

/-- `getBsVel`, triple_integrator.h:250-260. -/
def getBsVel (n : ℕ) (T Ts : K) : Res (Mat K) :=
  makeBlockDiagonalCopies (Mat.ofRows 1 [[Ts * Ts * Ts / (3 * T * T)], [Ts * Ts / (T * T)], [2 * Ts / (T * T)]]) n

/-- `getBsPos`, triple_integrator.h:264-274. -/
def getBsPos (n : ℕ) (T Ts : K) : Res (Mat K) :=
  makeBlockDiagonalCopies (Mat.ofRows 1 [[Ts * Ts * Ts / (T * T * T)], [3 * Ts * Ts / (T * T * T)], [6 * Ts / (T * T * T)]]) n

/-- `getDAcc`, triple_integrator.h:292-299. -/
def getDAcc (n : ℕ) (T : K) : Res (Mat K) := makeBlockDiagonalCopies (Mat.ofRows 3 [[0, 0, -1 / T]]) n

/-- `getDVel`, triple_integrator.h:303-310. -/
def getDVel (n : ℕ) (T : K) : Res (Mat K) := makeBlockDiagonalCopies (Mat.ofRows 3 [[0, -2 / (T * T), -2 / T]]) n

/-- `getDPos`, triple_integrator.h:314-321. -/
def getDPos (n : ℕ) (T : K) : Res (Mat K) :=
  makeBlockDiagonalCopies (Mat.ofRows 3 [[-6 / (T * T * T), -6 / (T * T), -3 / T]]) n

/-- `x * Identity(n, n)`. -/
def scaledIdentity (n : ℕ) (x : K) : Mat K := ⟨n, n, fun i j => x * (if i = j then 1 else 0)⟩

/-- `getEAcc`, triple_integrator.h:338-345. -/
def getEAcc (n : ℕ) (T : K) : Mat K := scaledIdentity n (1 / T)

/-- `getEVel`, triple_integrator.h:349-356. -/
def getEVel (n : ℕ) (T : K) : Mat K := scaledIdentity n (2 / (T * T))

/-- `getEPos`, triple_integrator.h:360-367. -/
def getEPos (n : ℕ) (T : K) : Mat K := scaledIdentity n (6 / (T * T * T))

end TripleIntegrator

end Humoto
