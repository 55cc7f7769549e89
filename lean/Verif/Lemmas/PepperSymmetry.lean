import Verif.Props.PepperHotstart
import Verif.Spec.PepperSymmetry

/-!
# Symmetries of the motion of Pepper
-/

namespace Humoto.Pepper

open Spec

section
variable {K : Type} [Field K] [LinearOrder K] [IsStrictOrderedRing K] {g : PlaneMap K} {tr : Trig K} {p : RobotParameters K}

/-- Lengths are kept, hence the matrix is orthogonal. -/
theorem symmetry_orthogonal (h : PlaneSymmetry tr p g) : g.R 0 0 ^ 2 + g.R 1 0 ^ 2 = 1 ∧ g.R 0 1 ^ 2 + g.R 1 1 ^ 2 = 1 ∧
    g.R 0 0 * g.R 0 1 + g.R 1 0 * g.R 1 1 = 0 ∧ g.R 0 0 ^ 2 + g.R 0 1 ^ 2 = 1 ∧ g.R 1 0 ^ 2 + g.R 1 1 ^ 2 = 1 ∧
    g.R 0 0 * g.R 1 0 + g.R 0 1 * g.R 1 1 = 0 := by
  have h1 := h.lengths ![1, 0]
  have h2 := h.lengths ![0, 1]
  have h3 := h.lengths ![1, 1]
  simp only [PlaneMap.direction, Matrix.cons_val_zero, Matrix.cons_val_one] at h1 h2 h3
  generalize g.R 0 0 = a at *
  generalize g.R 0 1 = b at *
  generalize g.R 1 0 = c at *
  generalize g.R 1 1 = d at *
  have e1 : a ^ 2 + c ^ 2 = 1 := by linear_combination h1
  have e2 : b ^ 2 + d ^ 2 = 1 := by linear_combination h2
  have e3 : a * b + c * d = 0 := by linear_combination (h3 - e1 - e2) / 2
  have hd : (a * d - b * c) ^ 2 = 1 := by linear_combination e1 * (b ^ 2 + d ^ 2) + e2 - (a * b + c * d) * e3
  have key : a ^ 2 + b ^ 2 = 1 ∧ a * c + b * d = 0 := by
    have k1 : a * (a * d - b * c) = d := by linear_combination d * e1 - c * e3
    have k2 : b * (a * d - b * c) = -c := by linear_combination -c * e2 + d * e3
    constructor
    · have : (a ^ 2 + b ^ 2) * (a * d - b * c) ^ 2 = c ^ 2 + d ^ 2 := by
        linear_combination (a * (a * d - b * c) + d) * k1 + (b * (a * d - b * c) - c) * k2
      rw [hd, mul_one] at this
      linear_combination (this + e1 + e2) / 2
    · have : (a * c + b * d) * (a * d - b * c) ^ 2 = 0 := by
        linear_combination (a * d - b * c) * c * k1 + (a * d - b * c) * d * k2
      rw [hd, mul_one] at this
      exact this
  refine ⟨e1, e2, e3, key.1, ?_, key.2⟩
  linear_combination e1 + e2 - key.1

/-- Images of states; `b` is 0 for the base, 1 for the body. -/
structure RelVec (g : PlaneMap K) (X X' : Vec K) : Prop where
  position : ∀ b < 2, ∀ a : Fin 2, X'.e (3 * (2 * b + a)) = g.R a 0 * X.e (3 * (2 * b)) + g.R a 1 * X.e (3 * (2 * b + 1)) + g.d a
  velocity : ∀ b < 2, ∀ a : Fin 2, X'.e (3 * (2 * b + a) + 1) = g.R a 0 * X.e (3 * (2 * b) + 1) + g.R a 1 * X.e (3 * (2 * b + 1) + 1)
  acceleration : ∀ b < 2, ∀ a : Fin 2, X'.e (3 * (2 * b + a) + 2) = g.R a 0 * X.e (3 * (2 * b) + 2) + g.R a 1 * X.e (3 * (2 * b + 1) + 2)

/-- Images of controls. -/
def RelCtl (g : PlaneMap K) (u u' : Vec K) : Prop := ∀ b < 2, ∀ a : Fin 2, u'.e (2 * b + a) = g.R a 0 * u.e (2 * b) + g.R a 1 * u.e (2 * b + 1)

theorem jerk_rel {T : K} {x x' u u' : Vec K} (hx : RelVec g x x') (hu : RelCtl g u u') {b : ℕ} (hb : b < 2) (a : Fin 2) :
    stepJerk T x' u' (2 * b + a) = g.R a 0 * stepJerk T x u (2 * b) + g.R a 1 * stepJerk T x u (2 * b + 1) := by
  unfold stepJerk
  rw [hu b hb a, hx.velocity b hb a, hx.acceleration b hb a]
  have hb' : b = 0 ∨ b = 1 := by omega
  rcases hb' with rfl | rfl
  · rw [if_pos (by omega), if_pos (by omega), if_pos (by omega)]
    ring
  · rw [if_neg (by omega), if_neg (by omega), if_neg (by omega)]

theorem step_rel {T τ : K} (hT : T ≠ 0) {x x' u u' y y' : Vec K} (h : PepperStep T τ x u y) (h' : PepperStep T τ x' u' y')
    (hx : RelVec g x x') (hu : RelCtl g u u') : RelVec g y y' := by
  have e := fun k hk => PepperStep.eq hT h (k := k) hk
  have e' := fun k hk => PepperStep.eq hT h' (k := k) hk
  refine ⟨fun b hb a => ?_, fun b hb a => ?_, fun b hb a => ?_⟩
  · rw [(e' (2 * b + a) (by omega)).1, (e (2 * b) (by omega)).1, (e (2 * b + 1) (by omega)).1, jerk_rel hx hu hb a, hx.position b hb a,
      hx.velocity b hb a, hx.acceleration b hb a]
    unfold positionAt
    ring
  · rw [(e' (2 * b + a) (by omega)).2.1, (e (2 * b) (by omega)).2.1, (e (2 * b + 1) (by omega)).2.1, jerk_rel hx hu hb a,
      hx.velocity b hb a, hx.acceleration b hb a]
    unfold velocityAt
    ring
  · rw [(e' (2 * b + a) (by omega)).2.2, (e (2 * b) (by omega)).2.2, (e (2 * b + 1) (by omega)).2.2, jerk_rel hx hu hb a,
      hx.acceleration b hb a]
    unfold accelerationAt
    ring

theorem control_rel {N k : ℕ} (hk : k < N) {x x' : ℕ → K} (h : MovedSolution g N x x') : RelCtl g (controlAt N x k) (controlAt N x' k) := by
  intro b hb a
  have hb' : b = 0 ∨ b = 1 := by omega
  rcases hb' with rfl | rfl
  · have := h k (by omega) a
    fin_cases a <;> exact this
  · have := h (N + k) (by omega) a
    rw [show 2 * (N + k) = 2 * N + 2 * k by ring] at this
    fin_cases a <;> exact this

/-- The image of an interval. -/
structure MovedInterval (g : PlaneMap K) (iv iv' : Interval K) : Prop where
  duration : iv'.T = iv.T
  forward : ∀ i, iv'.rotation i 0 = g.R i 0 * iv.rotation 0 0 + g.R i 1 * iv.rotation 1 0
  left : ∀ i, iv'.rotation i 1 = g.e * (g.R i 0 * iv.rotation 0 1 + g.R i 1 * iv.rotation 1 1)
  velocity : iv'.base_vel_ref = g.direction iv.base_vel_ref
  position : iv'.base_pos_ref = g.point iv.base_pos_ref
  heights : iv'.base_height = iv.base_height ∧ iv'.body_height = iv.body_height
  masses : iv'.base_mass = iv.base_mass ∧ iv'.body_mass = iv.body_mass
  bounds : iv'.cop_bounds = iv.cop_bounds ∧ iv'.nominal_base_velocity_bounds = iv.nominal_base_velocity_bounds ∧
    iv'.nominal_base_acceleration_bounds = iv.nominal_base_acceleration_bounds ∧ iv'.body_bounds = iv.body_bounds
  yaw : iv'.theta = g.angle iv.theta

theorem intervalFor_rel (h : PlaneSymmetry tr p g) {q : MPCParameters} {model model' : Model K} {mo : MotionParameters K} {t : K} {iv iv' : Interval K}
    (hs : MovedState g model.state model'.state) (hp : model'.robot_parameters = model.robot_parameters)
    (hi : IntervalFor tr q model mo t iv) (hi' : IntervalFor tr q model' (movedMotion g mo) (g.angle t) iv') : MovedInterval g iv iv' := by
  have hyaw : iv'.theta = g.angle iv.theta := by
    rw [hi'.turn, hi.turn]
    show g.angle t + g.e * mo.base_angular_velocity * _ = _
    unfold PlaneMap.angle
    ring
  have f := h.forward iv.theta
  have l := h.left iv.theta
  rw [← hyaw] at f l
  have f0 := congrFun f 0
  have f1 := congrFun f 1
  have l0 := congrFun l 0
  have l1 := congrFun l 1
  simp only [PlaneMap.direction, Matrix.cons_val_zero, Matrix.cons_val_one] at f0 f1 l0 l1
  have hf : ∀ i, iv'.rotation i 0 = g.R i 0 * iv.rotation 0 0 + g.R i 1 * iv.rotation 1 0 := by
    rw [hi'.rotation, hi.rotation]
    intro i
    fin_cases i
    · exact f0
    · exact f1
  have hl : ∀ i, iv'.rotation i 1 = g.e * (g.R i 0 * iv.rotation 0 1 + g.R i 1 * iv.rotation 1 1) := by
    rw [hi'.rotation, hi.rotation]
    intro i
    fin_cases i
    · exact l0
    · exact l1
  refine ⟨hi'.duration.trans hi.duration.symm, hf, hl, ?_, by rw [hi'.position, hi.position]; rfl, ?_, ?_, ?_, hyaw⟩
  · rw [hi'.velocity, hi.velocity]
    have he : g.e * g.e = 1 := by rcases h.mirror with e | e <;> rw [e] <;> norm_num
    funext i
    have e1 := hf i
    have e2 := hl i
    show iv'.rotation.mulVec (g.side mo.base_velocity) i = _
    simp only [Matrix.mulVec, dotProduct, Fin.sum_univ_two, PlaneMap.direction, PlaneMap.side, Matrix.cons_val_zero, Matrix.cons_val_one]
    rw [e1, e2]
    linear_combination (g.R i 0 * iv.rotation 0 1 + g.R i 1 * iv.rotation 1 1) * mo.base_velocity 1 * he
  · rw [hi'.base_height, hi.base_height, hi'.body_height, hi.body_height]
    exact hs.heights
  · rw [hi'.base_mass, hi.base_mass, hi'.body_mass, hi.body_mass]
    exact hs.masses
  · rw [hi'.cop_bounds, hi'.velocity_bounds, hi'.acceleration_bounds, hi'.body_bounds, hi.cop_bounds, hi.velocity_bounds, hi.acceleration_bounds,
      hi.body_bounds, hp]
    exact ⟨rfl, rfl, rfl, rfl⟩

/-- The image of a horizon. -/
def MovedIntervals (g : PlaneMap K) (ivs ivs' : List (Interval K)) : Prop :=
  ivs'.length = ivs.length ∧ ∀ (k : ℕ) iv iv', ivs[k]? = some iv → ivs'[k]? = some iv' → MovedInterval g iv iv'

theorem horizon_rel (h : PlaneSymmetry tr p g) {q : MPCParameters} {model model' : Model K} {mo : MotionParameters K} {ivs ivs' : List (Interval K)}
    (hs : MovedState g model.state model'.state) (hp : model'.robot_parameters = model.robot_parameters)
    (hH : HorizonFor tr q model [mo] ivs) (hH' : HorizonFor tr q model' [movedMotion g mo] ivs') : MovedIntervals g ivs ivs' := by
  refine ⟨hH'.1.trans hH.1.symm, fun k => ?_⟩
  induction k with
  | zero =>
    intro iv iv' e e'
    obtain ⟨m1, t1, f1, s1, i1⟩ := hH.2 0 iv e
    obtain ⟨m2, t2, f2, s2, i2⟩ := hH'.2 0 iv' e'
    cases inForce_single f1
    cases inForce_single f2
    have s1 : t1 = model.state.base_state.rpy 2 := s1
    have s2 : t2 = model'.state.base_state.rpy 2 := s2
    rw [s2, hs.yaw, ← s1] at i2
    exact intervalFor_rel h hs hp i1 i2
  | succ k ih =>
    intro iv iv' e e'
    obtain ⟨m1, t1, f1, ⟨p1, g1, rfl⟩, i1⟩ := hH.2 (k + 1) iv e
    obtain ⟨m2, t2, f2, ⟨p2, g2, rfl⟩, i2⟩ := hH'.2 (k + 1) iv' e'
    cases inForce_single f1
    cases inForce_single f2
    rw [(ih p1 p2 g1 g2).yaw] at i2
    exact intervalFor_rel h hs hp i1 i2

theorem simulates_rel {ivs ivs' : List (Interval K)} (hT : ∀ iv ∈ ivs, iv.T ≠ 0) (hI : MovedIntervals g ivs ivs') {x0 x0' : Vec K}
    (h0 : RelVec g x0 x0') {x x' : ℕ → K} (hx : MovedSolution g ivs.length x x') {X X' : ℕ → Vec K} (h : Simulates ivs x0 x X)
    (h' : Simulates ivs' x0' x' X') : ∀ k ≤ ivs.length, RelVec g (X k) (X' k) := by
  intro k
  induction k with
  | zero => intro _; rw [h.1, h'.1]; exact h0
  | succ k ih =>
    intro hk
    obtain ⟨iv, e⟩ : ∃ iv, ivs[k]? = some iv := ⟨_, List.getElem?_eq_getElem hk⟩
    obtain ⟨iv', e'⟩ : ∃ iv, ivs'[k]? = some iv := ⟨_, List.getElem?_eq_getElem (by rw [hI.1]; exact hk)⟩
    have hm := hI.2 k iv iv' e e'
    have s := h.2 k iv e
    have s' := h'.2 k iv' e'
    rw [hm.duration, hI.1] at s'
    exact step_rel (hT iv (List.mem_of_getElem? e)) s s' (ih (by omega)) (control_rel hk hx)

/-! ## Quantities -/

section
variable {iv iv' : Interval K} {Z Z' Y Y' : Vec K}

theorem velocity_rel (hY : RelVec g Y Y') : velocityQuantity iv' Z' Y' = g.direction (velocityQuantity iv Z Y) := by
  funext a
  have := hY.velocity 0 (by omega) a
  fin_cases a <;> exact this

theorem acceleration_rel (hY : RelVec g Y Y') : accelerationQuantity iv' Z' Y' = g.direction (accelerationQuantity iv Z Y) := by
  funext a
  have := hY.acceleration 0 (by omega) a
  fin_cases a <;> exact this

theorem cop_rel (hi : MovedInterval g iv iv') (hm : iv.base_mass + iv.body_mass ≠ 0) (hY : RelVec g Y Y') :
    copQuantity iv' Z' Y' = g.direction (copQuantity iv Z Y) := by
  funext a
  have p0 := hY.position 0 (by omega) a
  have p1 := hY.position 1 (by omega) a
  have a0 := hY.acceleration 0 (by omega) a
  have a1 := hY.acceleration 1 (by omega) a
  rw [show 3 * (2 * 0 + (a : ℕ)) = 3 * a by ring] at p0 a0
  rw [show 3 * (2 * 1 + (a : ℕ)) = 3 * (a + 2) by ring] at p1 a1
  simp only [Nat.reduceMul, Nat.reduceAdd] at p0 p1 a0 a1
  show intervalCop iv' Y' a = g.R a 0 * intervalCop iv Y 0 + g.R a 1 * intervalCop iv Y 1
  unfold intervalCop
  rw [p0, p1, a0, a1, hi.heights.1, hi.heights.2, hi.masses.1, hi.masses.2]
  simp only [Nat.reduceMul, Nat.reduceAdd]
  field_simp
  ring

theorem body_rel (h : PlaneSymmetry tr p g) (hi : MovedInterval g iv iv') (hY : RelVec g Y Y') :
    bodyQuantity iv' Z' Y' = g.side (bodyQuantity iv Z Y) := by
  obtain ⟨e1, e2, e3, -, -, -⟩ := symmetry_orthogonal h
  have p00 := hY.position 0 (by omega) 0
  have p01 := hY.position 0 (by omega) 1
  have p10 := hY.position 1 (by omega) 0
  have p11 := hY.position 1 (by omega) 1
  simp only [Fin.val_zero, Fin.val_one, Nat.reduceMul, Nat.reduceAdd] at p00 p01 p10 p11
  funext a
  fin_cases a
  · show iv'.rotation 0 0 * (Y'.e 6 - Y'.e 0) + iv'.rotation 1 0 * (Y'.e 9 - Y'.e 3) =
      iv.rotation 0 0 * (Y.e 6 - Y.e 0) + iv.rotation 1 0 * (Y.e 9 - Y.e 3)
    rw [hi.forward, hi.forward, p00, p01, p10, p11]
    linear_combination iv.rotation 0 0 * (Y.e 6 - Y.e 0) * e1 + iv.rotation 1 0 * (Y.e 9 - Y.e 3) * e2 +
      (iv.rotation 0 0 * (Y.e 9 - Y.e 3) + iv.rotation 1 0 * (Y.e 6 - Y.e 0)) * e3
  · show iv'.rotation 0 1 * (Y'.e 6 - Y'.e 0) + iv'.rotation 1 1 * (Y'.e 9 - Y'.e 3) =
      g.e * (iv.rotation 0 1 * (Y.e 6 - Y.e 0) + iv.rotation 1 1 * (Y.e 9 - Y.e 3))
    rw [hi.left, hi.left, p00, p01, p10, p11]
    linear_combination g.e * (iv.rotation 0 1 * (Y.e 6 - Y.e 0) * e1 + iv.rotation 1 1 * (Y.e 9 - Y.e 3) * e2 +
      (iv.rotation 0 1 * (Y.e 9 - Y.e 3) + iv.rotation 1 1 * (Y.e 6 - Y.e 0)) * e3)

theorem baseJerk_rel (hi : MovedInterval g iv iv') (hZ : RelVec g Z Z') (hY : RelVec g Y Y') :
    baseJerkQuantity iv' Z' Y' = g.direction (baseJerkQuantity iv Z Y) := by
  funext a
  have a0 := hY.acceleration 0 (by omega) a
  have a1 := hZ.acceleration 0 (by omega) a
  rw [show 3 * (2 * 0 + (a : ℕ)) = 3 * a by ring] at a0 a1
  show (Y'.e (3 * a + 2) - Z'.e (3 * a + 2)) / iv'.T = g.R a 0 * ((Y.e 2 - Z.e 2) / iv.T) + g.R a 1 * ((Y.e 5 - Z.e 5) / iv.T)
  rw [a0, a1, hi.duration]
  ring

theorem bodyJerk_rel (hi : MovedInterval g iv iv') (hZ : RelVec g Z Z') (hY : RelVec g Y Y') :
    bodyJerkQuantity iv' Z' Y' = g.direction (bodyJerkQuantity iv Z Y) := by
  funext a
  have a0 := hY.acceleration 1 (by omega) a
  have a1 := hZ.acceleration 1 (by omega) a
  rw [show 3 * (2 * 1 + (a : ℕ)) = 3 * (a + 2) by ring] at a0 a1
  show (Y'.e (3 * (a + 2) + 2) - Z'.e (3 * (a + 2) + 2)) / iv'.T = g.R a 0 * ((Y.e 8 - Z.e 8) / iv.T) + g.R a 1 * ((Y.e 11 - Z.e 11) / iv.T)
  rw [a0, a1, hi.duration]
  ring

theorem positionError_rel (hi : MovedInterval g iv iv') (hY : RelVec g Y Y') :
    positionErrorQuantity iv' Z' Y' = g.direction (positionErrorQuantity iv Z Y) := by
  funext a
  have p0 := hY.position 0 (by omega) a
  rw [show 3 * (2 * 0 + (a : ℕ)) = 3 * a by ring] at p0
  show Y'.e (3 * a) - iv'.base_pos_ref a = g.R a 0 * (Y.e 0 - iv.base_pos_ref 0) + g.R a 1 * (Y.e 3 - iv.base_pos_ref 1)
  rw [p0, hi.position]
  simp only [PlaneMap.point, PlaneMap.direction, Nat.reduceMul, Nat.reduceAdd]
  ring

theorem velocityError_rel (hi : MovedInterval g iv iv') (hY : RelVec g Y Y') :
    velocityErrorQuantity iv' Z' Y' = g.direction (velocityErrorQuantity iv Z Y) := by
  funext a
  have p0 := hY.velocity 0 (by omega) a
  rw [show 3 * (2 * 0 + (a : ℕ)) = 3 * a by ring] at p0
  show Y'.e (3 * a + 1) - iv'.base_vel_ref a = g.R a 0 * (Y.e 1 - iv.base_vel_ref 0) + g.R a 1 * (Y.e 4 - iv.base_vel_ref 1)
  rw [p0, hi.velocity]
  simp only [PlaneMap.direction, Nat.reduceMul, Nat.reduceAdd]
  ring

end

/-! ## Motions -/

section
variable {ivs ivs' : List (Interval K)} {X X' : ℕ → Vec K}

/-- The quantity of the image is the image of the quantity. -/
def RelQuantity (g : PlaneMap K) (ivs ivs' : List (Interval K)) (X X' : ℕ → Vec K) (Q : Quantity K) : Prop :=
  ∀ (k : ℕ) iv iv', ivs[k]? = some iv → ivs'[k]? = some iv' → Q iv' (X' k) (X' (k + 1)) = g.direction (Q iv (X k) (X (k + 1)))

theorem cost_rel (h : PlaneSymmetry tr p g) (hl : ivs'.length = ivs.length) {Q : Quantity K} (hQ : RelQuantity g ivs ivs' X X' Q) :
    motionCost ivs' Q X' = motionCost ivs Q X := by
  unfold motionCost
  refine Fintype.sum_equiv (finCongr hl) _ _ fun k => ?_
  have e1 : ivs'[k]? = some ivs'[k] := List.getElem?_eq_getElem k.2
  have e2 : ivs[k]? = some (ivs[finCongr hl k]) := List.getElem?_eq_getElem (by rw [← hl]; exact k.2)
  have := hQ k _ _ e2 e1
  rw [Fin.sum_univ_two, Fin.sum_univ_two, this]
  exact h.lengths _

theorem within_rel {Q : Quantity K} (hl : ivs'.length = ivs.length) {b : Interval K → Fin 2 → Fin 2 → K}
    {f : (Fin 2 → K) → Fin 2 → K} (hQ : ∀ (k : ℕ) iv iv', ivs[k]? = some iv → ivs'[k]? = some iv' →
      Q iv' (X' k) (X' (k + 1)) = f (Q iv (X k) (X (k + 1))) ∧ ∀ v, WithinBounds (b iv') (f v) ↔ WithinBounds (b iv) v) :
    MotionWithin ivs' Q b X' ↔ MotionWithin ivs Q b X := by
  constructor
  · intro h k iv e
    obtain ⟨hk, -⟩ := List.getElem?_eq_some_iff.1 e
    obtain ⟨iv', e'⟩ : ∃ iv, ivs'[k]? = some iv := ⟨_, List.getElem?_eq_getElem (by rw [hl]; exact hk)⟩
    obtain ⟨q1, q2⟩ := hQ k iv iv' e e'
    have := h k iv' e'
    rw [q1] at this
    exact (q2 _).1 this
  · intro h k iv' e'
    obtain ⟨hk, -⟩ := List.getElem?_eq_some_iff.1 e'
    obtain ⟨iv, e⟩ : ∃ iv, ivs[k]? = some iv := ⟨_, List.getElem?_eq_getElem (by rw [← hl]; exact hk)⟩
    obtain ⟨q1, q2⟩ := hQ k iv iv' e e'
    rw [q1]
    exact (q2 _).2 (h k iv e)

/-- What is known about the intervals for the robot. -/
def BoundsOfRobot (p : RobotParameters K) (ivs : List (Interval K)) : Prop :=
  ∀ (k : ℕ) iv, ivs[k]? = some iv → iv.cop_bounds = p.cop_bounds ∧ iv.nominal_base_velocity_bounds = p.nominal_base_velocity_bounds ∧
    iv.nominal_base_acceleration_bounds = p.nominal_base_acceleration_bounds ∧ iv.body_bounds = p.body_bounds ∧
    iv.base_mass + iv.body_mass ≠ 0

theorem allowed_rel (h : PlaneSymmetry tr p g) (hI : MovedIntervals g ivs ivs') (hp : BoundsOfRobot p ivs)
    (hX : ∀ k ≤ ivs.length, RelVec g (X k) (X' k)) : PepperAllowed ivs' X' ↔ PepperAllowed ivs X := by
  have hk : ∀ {k : ℕ} {iv : Interval K}, ivs[k]? = some iv → RelVec g (X (k + 1)) (X' (k + 1)) := fun e =>
    hX _ (List.getElem?_eq_some_iff.1 e).1
  have h1 : MotionWithin ivs' velocityQuantity Interval.nominal_base_velocity_bounds X' ↔
      MotionWithin ivs velocityQuantity Interval.nominal_base_velocity_bounds X :=
    within_rel hI.1 fun k iv iv' e e' => ⟨velocity_rel (hk e), by rw [(hI.2 k iv iv' e e').bounds.2.1, (hp k iv e).2.1]; exact h.velocity⟩
  have h2 : MotionWithin ivs' accelerationQuantity Interval.nominal_base_acceleration_bounds X' ↔
      MotionWithin ivs accelerationQuantity Interval.nominal_base_acceleration_bounds X :=
    within_rel hI.1 fun k iv iv' e e' =>
      ⟨acceleration_rel (hk e), by rw [(hI.2 k iv iv' e e').bounds.2.2.1, (hp k iv e).2.2.1]; exact h.acceleration⟩
  have h3 : MotionWithin ivs' copQuantity Interval.cop_bounds X' ↔ MotionWithin ivs copQuantity Interval.cop_bounds X :=
    within_rel hI.1 fun k iv iv' e e' => ⟨cop_rel (hI.2 k iv iv' e e') (hp k iv e).2.2.2.2 (hk e),
      by rw [(hI.2 k iv iv' e e').bounds.1, (hp k iv e).1]; exact h.cop⟩
  have h4 : MotionWithin ivs' bodyQuantity Interval.body_bounds X' ↔ MotionWithin ivs bodyQuantity Interval.body_bounds X :=
    within_rel hI.1 fun k iv iv' e e' => ⟨body_rel h (hI.2 k iv iv' e e') (hk e),
      by rw [(hI.2 k iv iv' e e').bounds.2.2.2, (hp k iv e).2.2.2.1]; exact h.body⟩
  exact ⟨fun ⟨a, b, c, d⟩ => ⟨h1.1 a, h2.1 b, h3.1 c, h4.1 d⟩, fun ⟨a, b, c, d⟩ => ⟨h1.2 a, h2.2 b, h3.2 c, h4.2 d⟩⟩

theorem pepperCost_rel (h : PlaneSymmetry tr p g) (hI : MovedIntervals g ivs ivs') (hp : BoundsOfRobot p ivs) (o : ProblemSetup K)
    (hX : ∀ k ≤ ivs.length, RelVec g (X k) (X' k)) : pepperCost o ivs' X' = pepperCost o ivs X := by
  have hk : ∀ {k : ℕ} {iv : Interval K}, ivs[k]? = some iv → RelVec g (X (k + 1)) (X' (k + 1)) := fun e =>
    hX _ (List.getElem?_eq_some_iff.1 e).1
  have hk' : ∀ {k : ℕ} {iv : Interval K}, ivs[k]? = some iv → RelVec g (X k) (X' k) := fun e =>
    hX _ (List.getElem?_eq_some_iff.1 e).1.le
  unfold pepperCost
  rw [cost_rel h hI.1 (Q := positionErrorQuantity) fun k iv iv' e e' => positionError_rel (hI.2 k iv iv' e e') (hk e),
    cost_rel h hI.1 (Q := velocityErrorQuantity) fun k iv iv' e e' => velocityError_rel (hI.2 k iv iv' e e') (hk e),
    cost_rel h hI.1 (Q := baseJerkQuantity) fun k iv iv' e e' => baseJerk_rel (hI.2 k iv iv' e e') (hk' e) (hk e),
    cost_rel h hI.1 (Q := bodyJerkQuantity) fun k iv iv' e e' => bodyJerk_rel (hI.2 k iv iv' e e') (hk' e) (hk e),
    cost_rel h hI.1 (Q := copQuantity) fun k iv iv' e e' => cop_rel (hI.2 k iv iv' e e') (hp k iv e).2.2.2.2 (hk e)]

/-- The image of a solution. -/
def imageSolution (g : PlaneMap K) (x : ℕ → K) : ℕ → K := fun i =>
  if i % 2 = 0 then g.R 0 0 * x i + g.R 0 1 * x (i + 1) else g.R 1 0 * x (i - 1) + g.R 1 1 * x i

theorem imageSolution_moved (g : PlaneMap K) (N : ℕ) (x : ℕ → K) : MovedSolution g N x (imageSolution g x) := by
  intro k _ a
  unfold imageSolution
  fin_cases a
  · show (if (2 * k + 0) % 2 = 0 then _ else _) = g.R 0 0 * x (2 * k) + g.R 0 1 * x (2 * k + 1)
    rw [if_pos (by omega)]
    rfl
  · show (if (2 * k + 1) % 2 = 0 then _ else _) = g.R 1 0 * x (2 * k) + g.R 1 1 * x (2 * k + 1)
    rw [if_neg (by omega), show 2 * k + 1 - 1 = 2 * k by omega]

/-- The solution with the given image. -/
theorem imageSolution_surjective (h : PlaneSymmetry tr p g) (N : ℕ) (y : ℕ → K) : ∃ x, MovedSolution g N x y := by
  obtain ⟨-, -, -, e4, e5, e6⟩ := symmetry_orthogonal h
  refine ⟨fun i => if i % 2 = 0 then g.R 0 0 * y i + g.R 1 0 * y (i + 1) else g.R 0 1 * y (i - 1) + g.R 1 1 * y i, fun k _ a => ?_⟩
  simp only [PlaneMap.direction, Matrix.cons_val_zero, Matrix.cons_val_one]
  rw [if_pos (by omega), if_neg (by omega), show 2 * k + 1 - 1 = 2 * k by omega]
  fin_cases a
  · show y (2 * k) = g.R 0 0 * (g.R 0 0 * y (2 * k) + g.R 1 0 * y (2 * k + 1)) + g.R 0 1 * (g.R 0 1 * y (2 * k) + g.R 1 1 * y (2 * k + 1))
    linear_combination -(y (2 * k) * e4 + y (2 * k + 1) * e6)
  · show y (2 * k + 1) = g.R 1 0 * (g.R 0 0 * y (2 * k) + g.R 1 0 * y (2 * k + 1)) + g.R 1 1 * (g.R 0 1 * y (2 * k) + g.R 1 1 * y (2 * k + 1))
    linear_combination -(y (2 * k + 1) * e5 + y (2 * k) * e6)

/-- The image of the best solution is the best one. -/
theorem best_rel (h : PlaneSymmetry tr p g) (hT : ∀ iv ∈ ivs, iv.T ≠ 0) (hT' : ∀ iv ∈ ivs', iv.T ≠ 0) (hI : MovedIntervals g ivs ivs')
    (hp : BoundsOfRobot p ivs) {x0 x0' : Vec K} (n0 : x0.n = 12) (n0' : x0'.n = 12) (h0 : RelVec g x0 x0') {o : ProblemSetup K}
    (hM : ∀ z, PepperFeasible ivs x0 z → PepperModerate ivs z) {x x' : ℕ → K} (hx : MovedSolution g ivs.length x x')
    (hb : PepperBest o ivs x0 0 (PepperModerate ivs) x) : PepperBest o ivs' x0' 0 (PepperModerate ivs') x' := by
  intro X' hX'
  have hX := simulation_simulates hT n0 x
  have r1 := simulates_rel hT hI h0 hx hX hX'
  obtain ⟨hA, hmin⟩ := hb _ hX
  refine ⟨(allowed_rel h hI hp r1).2 hA, fun y' Y' hY' hA' _ => ?_⟩
  obtain ⟨y, hy⟩ := imageSolution_surjective h ivs.length y'
  have hY := simulation_simulates hT n0 y
  have r2 := simulates_rel hT hI h0 hy hY hY'
  have hAy := (allowed_rel h hI hp r2).1 hA'
  have hfy : PepperFeasible ivs x0 y := by
    intro Z hZ
    have r3 := simulates_rel hT hI h0 hy hZ hY'
    exact (allowed_rel h hI hp r3).1 hA'
  have := hmin y _ hY hAy (hM y hfy)
  rw [zero_mul, zero_mul, add_zero, add_zero] at this ⊢
  rw [pepperCost_rel h hI hp o r1, pepperCost_rel h hI hp o r2]
  exact this

end

end

end Humoto.Pepper
