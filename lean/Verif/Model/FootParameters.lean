import Verif.Model.Stance
import Mathlib.LinearAlgebra.Matrix.Notation
import Mathlib.Data.Matrix.Mul

/-!
# Feet of the robot, core/include/walking/robot_foot_parameters.h

`etools::Vector2` is `Fin 2 → K`, `etools::Matrix2` is `Matrix (Fin 2) (Fin 2) K`. Bounds are matrices: a row for each
coordinate, the lower bound in the first column and the upper bound in the second one.
-/

namespace Humoto

variable {K : Type} [Field K]

/-- `etools::transform(vector, rotation, translation)`, core/include/eigentools/eigentools.h:341-346, for a single vector. -/
def transform2 {n : ℕ} (v : Fin n → K) (R : Matrix (Fin n) (Fin n) K) (t : Fin n → K) : Fin n → K := R.mulVec v + t

/-- `FootBoundsType::Type`, robot_foot_parameters.h:17-27. -/
inductive FootBoundsType
  | undefined
  | withRespectToADS
  | withRespectToSS
  | alignedToSS
  deriving DecidableEq, Repr

/-- `RobotFootParameters::LeftRightParameters`, robot_foot_parameters.h:56-82. -/
structure FootData (K : Type) where
  footPositionInAds : Fin 2 → K
  adsPositionFromSs : Fin 2 → K
  footPositionBoundsSs : Matrix (Fin 2) (Fin 2) K
  footPositionFixedSs : Matrix (Fin 2) (Fin 2) K
  footPositionFixedDs : Matrix (Fin 2) (Fin 2) K

/-- `LeftRightParameters::getFootPositionBounds`, robot_foot_parameters.h:124-140. -/
def FootData.getFootPositionBounds (f : FootData K) : FootBoundsType → Res (Matrix (Fin 2) (Fin 2) K)
  | .withRespectToADS => .ok f.footPositionFixedDs
  | .withRespectToSS => .ok f.footPositionBoundsSs
  | .alignedToSS => .ok f.footPositionFixedSs
  | .undefined => .error .thrown

/-- `RobotFootParameters`, robot_foot_parameters.h:41-52, 145-170: the configuration parameters. -/
structure FootParameters (K : Type) where
  maxStepLen : K
  minFeetDist : K
  maxFeetDist : K
  feetDistDefault : K
  footLength : K
  footWidth : K

namespace FootParameters

/-- `finalize`, robot_foot_parameters.h:176-223, the left foot. -/
def leftFoot (p : FootParameters K) : FootData K where
  footPositionInAds := ![0, p.feetDistDefault / 2]
  adsPositionFromSs := ![0, -(p.feetDistDefault / 2)]
  footPositionBoundsSs := !![-p.maxStepLen, p.maxStepLen; p.minFeetDist, p.maxFeetDist]
  footPositionFixedSs := !![0, 0; p.feetDistDefault / 2, p.feetDistDefault / 2]
  footPositionFixedDs := !![0, 0; p.feetDistDefault / 2, p.feetDistDefault / 2]

/-- `finalize`, robot_foot_parameters.h:176-223, the right foot. -/
def rightFoot (p : FootParameters K) : FootData K where
  footPositionInAds := ![0, -(p.feetDistDefault / 2)]
  adsPositionFromSs := ![0, p.feetDistDefault / 2]
  footPositionBoundsSs := !![-p.maxStepLen, p.maxStepLen; -p.maxFeetDist, -p.minFeetDist]
  footPositionFixedSs := !![0, 0; -(p.feetDistDefault / 2), -(p.feetDistDefault / 2)]
  footPositionFixedDs := !![0, 0; -(p.feetDistDefault / 2), -(p.feetDistDefault / 2)]

/-- `getSSCoPBounds`, robot_foot_parameters.h:191-193, 319-322. -/
def getSSCoPBounds (p : FootParameters K) : Matrix (Fin 2) (Fin 2) K :=
  !![-(p.footLength / 2), p.footLength / 2; -(p.footWidth / 2), p.footWidth / 2]

/-- `getADSCoPBounds`, robot_foot_parameters.h:195-197, 312-315. -/
def getADSCoPBounds (p : FootParameters K) : Matrix (Fin 2) (Fin 2) K :=
  !![-(p.footLength / 2), p.footLength / 2;
     -((p.footWidth + p.feetDistDefault) / 2), (p.footWidth + p.feetDistDefault) / 2]

/-- `feet_[left_or_right]`, `LeftRightContainer::operator[]`, core/include/humoto/leftright.h:75-90. -/
def foot (p : FootParameters K) : LeftOrRight → Res (FootData K)
  | .left => .ok p.leftFoot
  | .right => .ok p.rightFoot
  | .undefined => .error .thrown

/-- `getFootPositionFromADS`, robot_foot_parameters.h:94-98, 263-268. -/
def getFootPositionFromADS (p : FootParameters K) (s : LeftOrRight) (R : Matrix (Fin 2) (Fin 2) K) (pos : Fin 2 → K) :
    Res (Fin 2 → K) := do
  let f ← p.foot s
  pure (transform2 f.footPositionInAds R pos)

/-- `getADSPositionFromFoot`, robot_foot_parameters.h:110-114, 272-277. -/
def getADSPositionFromFoot (p : FootParameters K) (s : LeftOrRight) (R : Matrix (Fin 2) (Fin 2) K) (pos : Fin 2 → K) :
    Res (Fin 2 → K) := do
  let f ← p.foot s
  pure (transform2 f.adsPositionFromSs R pos)

/-- `getFootBounds`, robot_foot_parameters.h:289-293. -/
def getFootBounds (p : FootParameters K) (s : LeftOrRight) (ty : FootBoundsType) : Res (Matrix (Fin 2) (Fin 2) K) := do
  let f ← p.foot s
  f.getFootPositionBounds ty

/-- `setDefaults`, robot_foot_parameters.h:238-248. -/
def default : FootParameters ℚ := ⟨1 / 5, 19 / 100, 3 / 10, 19 / 100, 1372 / 10000, 58 / 1000⟩

end FootParameters

/-- `LeftOrRight::invert`, core/include/humoto/leftright.h:38-49. -/
def LeftOrRight.invert : LeftOrRight → Res LeftOrRight
  | .left => .ok .right
  | .right => .ok .left
  | .undefined => .error .thrown

end Humoto
