import Verif.Lemmas.ConfClasses

/-!
# C101: parameters and states of the modules are restored from configuration files
-/

namespace Humoto.Config

open Spec

/-! ## Objects are restored -/

/-- C101: states of point masses and of rigid bodies. -/
theorem C101_states : RestoredBy pointMassClass (fun _ => True) ∧ RestoredBy rigidBodyClass (fun _ => True) := by
  refine ⟨fun o _ q => readsAs_of ?_ ?_ ?_ ?_ ⟨o, ?_, rfl⟩, fun o _ q => readsAs_of ?_ ?_ ?_ ?_ ⟨o, ?_, rfl⟩⟩
  · simp [pointMassClass, pointMassEntries, SameClass, SameType, vecVal]
  · simp [pointMassClass, pointMassEntries, AllValues, WellTyped, vecVal]
  · simp [pointMassClass, pointMassEntries, AllValues, NoMatrix, vecVal]
  · simp [pointMassClass, pointMassEntries, Distinct, names]
  · simp only [pointMassClass, pointMassEntries, pointMassOf, toVec_vecVal]; rfl
  · simp [rigidBodyClass, rigidBodyEntries, pointMassEntries, SameClass, SameType, vecVal]
  · simp [rigidBodyClass, rigidBodyEntries, pointMassEntries, AllValues, WellTyped, vecVal]
  · simp [rigidBodyClass, rigidBodyEntries, pointMassEntries, AllValues, NoMatrix, vecVal]
  · simp [rigidBodyClass, rigidBodyEntries, pointMassEntries, Distinct, names]
  · simp only [rigidBodyClass, rigidBodyEntries, rigidBodyOf, pointMassEntries, pointMassOf, toVec_vecVal]; rfl

/-- C101: parameters of sequences of stances and of walking. -/
theorem C101_walking : RestoredBy fsmClass (fun _ => True) ∧ RestoredBy walkClass (fun _ => True) := by
  refine ⟨fun o _ q => readsAs_of ?_ ?_ ?_ ?_ ⟨o, ?_, rfl⟩, fun o _ q => readsAs_of ?_ ?_ ?_ ?_ ⟨o, ?_, rfl⟩⟩
  · simp [fsmClass, fsmEntries, SameClass, SameType, natVal, Scalar.type]
  · simp [fsmClass, fsmEntries, AllValues, WellTyped, natVal]
  · simp [fsmClass, fsmEntries, AllValues, NoMatrix, natVal]
  · simp [fsmClass, fsmEntries, Distinct, names]
  · simp only [fsmClass, fsmEntries, fsmOf, toNat_natVal, Val.toEnum, stanceOf_code, confOk_bind]; rfl
  · simp [walkClass, walkEntries, fsmEntries, SameClass, SameType, natVal, vecVal, realVal, Scalar.type]
  · simp [walkClass, walkEntries, fsmEntries, AllValues, WellTyped, natVal, vecVal, realVal]
  · simp [walkClass, walkEntries, fsmEntries, AllValues, NoMatrix, natVal, vecVal, realVal]
  · simp [walkClass, walkEntries, fsmEntries, Distinct, names]
  · simp only [walkClass, walkEntries, walkOf, fsmEntries, fsmOf, toNat_natVal, Val.toEnum, stanceOf_code, toVec_vecVal,
      confOk_bind]
    rfl

/-- C101: parameters of feet; the derived quantities are restored, too, if they correspond to the parameters. -/
theorem C101_feet : RestoredBy footClass (fun o => o = FootConf.ofParams o.params) := by
  refine fun o ho q => readsAs_of ?_ ?_ ?_ ?_ ⟨{ FootConf.ofParams defaultFeet with params := o.params }, ?_, ?_⟩
  · simp [footClass, footEntries, SameClass, SameType, realVal, Scalar.type]
  · simp [footClass, footEntries, AllValues, WellTyped, realVal]
  · simp [footClass, footEntries, AllValues, NoMatrix, realVal]
  · simp [footClass, footEntries, Distinct, names]
  · rfl
  · exact congrArg Except.ok ho.symm

/-- C101: parameters of model predictive control of walking, provided that they are valid. -/
theorem C101_wpgMpc : RestoredBy wpgMpcClass WpgMpcSampling := by
  rintro ⟨n, s, u, t, sn, tn, st, ut, tt⟩ ⟨h1, h2, h3, h4, h5, h6⟩ q
  simp only at h1 h2 h3 h4 h5 h6
  refine readsAs_of ?_ ?_ ?_ ?_ ⟨⟨n, s, u, t, 1, 1, 1 / 10, 1 / 10, 1 / 10⟩, ?_, ?_⟩
  · simp [wpgMpcClass, wpgMpcEntries, SameClass, SameType, natVal, Scalar.type]
  · simp [wpgMpcClass, wpgMpcEntries, AllValues, WellTyped, natVal]
  · simp [wpgMpcClass, wpgMpcEntries, AllValues, NoMatrix, natVal]
  · simp [wpgMpcClass, wpgMpcEntries, Distinct, names]
  · rfl
  · have e1 : s % u = 0 := by rw [← h1]; exact Nat.mul_mod_left _ _
    have e2 : t % u = 0 := by rw [← h2]; exact Nat.mul_mod_left _ _
    have e3 : s / u = sn := by rw [← h1]; exact Nat.mul_div_cancel _ h3
    have e4 : t / u = tn := by rw [← h2]; exact Nat.mul_div_cancel _ h3
    have e5 : (Pepper.convertMillisecondToSecond s : ℚ) = st := by
      rw [Pepper.convertMillisecondToSecond, ← h4]; ring
    have e6 : (Pepper.convertMillisecondToSecond u : ℚ) = ut := by
      rw [Pepper.convertMillisecondToSecond, ← h5]; ring
    have e7 : (Pepper.convertMillisecondToSecond t : ℚ) = tt := by
      rw [Pepper.convertMillisecondToSecond, ← h6]; ring
    simp only [wpgMpcClass, WpgMpcConf.finalize, e1, e2, e3, e4, e5, e6, e7]
    simp [require, assertThat, show u ≠ 0 by omega]
    rfl

/-- C101: states of the model of walking. -/
theorem C101_wpgState (nan : ℚ) : RestoredBy (wpgStateClass nan) (fun _ => True) := by
  refine fun o _ q => readsAs_of ?_ ?_ ?_ ?_ ⟨o, ?_, rfl⟩
  · simp [wpgStateClass, wpgStateEntries, rigidBodyEntries, pointMassEntries, SameClass, SameType, vecVal]
  · simp [wpgStateClass, wpgStateEntries, rigidBodyEntries, pointMassEntries, AllValues, WellTyped, vecVal]
  · simp [wpgStateClass, wpgStateEntries, rigidBodyEntries, pointMassEntries, AllValues, NoMatrix, vecVal]
  · simp [wpgStateClass, wpgStateEntries, rigidBodyEntries, pointMassEntries, Distinct, names]
  · simp only [wpgStateClass, wpgStateEntries, wpgStateOf, rigidBodyEntries, rigidBodyOf, pointMassEntries, pointMassOf,
      toVec_vecVal, Val.toEnum, stanceOf_code, confOk_bind]
    rfl

/-- C101: parameters of motions, parameters of model predictive control, and states of Pepper. -/
theorem C101_pepperMpc : RestoredBy pepperMotionClass (fun _ => True) ∧ RestoredBy pepperStateClass (fun _ => True) ∧
    RestoredBy pepperMpcClass (fun p => 1000 * p.sampling_time = p.sampling_time_ms ∧
      1000 * p.subsampling_time = p.subsampling_time_ms) := by
  refine ⟨fun o _ q => readsAs_of ?_ ?_ ?_ ?_ ⟨o, ?_, rfl⟩, fun o _ q => readsAs_of ?_ ?_ ?_ ?_ ⟨o, ?_, rfl⟩, ?_⟩
  · simp [pepperMotionClass, pepperMotionEntries, SameClass, SameType, vecVal, realVal, Scalar.type]
  · simp [pepperMotionClass, pepperMotionEntries, AllValues, WellTyped, vecVal, realVal]
  · simp [pepperMotionClass, pepperMotionEntries, AllValues, NoMatrix, vecVal, realVal]
  · simp [pepperMotionClass, pepperMotionEntries, Distinct, names]
  · simp only [pepperMotionClass, pepperMotionEntries, pepperMotionOf, toVec_vecVal, Val.toEnum, modeOf_code, confOk_bind]; rfl
  · simp [pepperStateClass, pepperStateEntries, rigidBodyEntries, pointMassEntries, SameClass, SameType, vecVal, realVal,
      Scalar.type]
  · simp [pepperStateClass, pepperStateEntries, rigidBodyEntries, pointMassEntries, AllValues, WellTyped, vecVal, realVal]
  · simp [pepperStateClass, pepperStateEntries, rigidBodyEntries, pointMassEntries, AllValues, NoMatrix, vecVal, realVal]
  · simp [pepperStateClass, pepperStateEntries, rigidBodyEntries, pointMassEntries, Distinct, names]
  · simp only [pepperStateClass, pepperStateEntries, pepperStateOf, rigidBodyEntries, rigidBodyOf, pointMassEntries,
      pointMassOf, toVec_vecVal]
    rfl
  · rintro ⟨n, s, u, st, ut⟩ ⟨h1, h2⟩ q
    simp only at h1 h2
    refine readsAs_of ?_ ?_ ?_ ?_ ⟨⟨n, s, u, 1 / 10, 1 / 10⟩, rfl, ?_⟩
    · simp [pepperMpcClass, pepperMpcEntries, SameClass, SameType, natVal, Scalar.type]
    · simp [pepperMpcClass, pepperMpcEntries, AllValues, WellTyped, natVal]
    · simp [pepperMpcClass, pepperMpcEntries, AllValues, NoMatrix, natVal]
    · simp [pepperMpcClass, pepperMpcEntries, Distinct, names]
    · have e1 : (Pepper.convertMillisecondToSecond s : ℚ) = st := by
        rw [Pepper.convertMillisecondToSecond, ← h1]; ring
      have e2 : (Pepper.convertMillisecondToSecond u : ℚ) = ut := by
        rw [Pepper.convertMillisecondToSecond, ← h2]; ring
      simp only [pepperMpcClass, PepperMpcConf.derive, e1, e2]

/-- C101: parameters of inverse kinematics, parameters of motions and coordinates of Pepper (with any numbers of coordinates of the
root and of joints, and any default coordinates). -/
theorem C101_pepperIk {n m : ℕ} (d : CoordsConf n m) : RestoredBy ikMotionClass (fun _ => True) ∧
    RestoredBy (coordsClass d) (fun _ => True) ∧
    RestoredBy wbcClass (fun p => 1000 * p.control_interval = p.control_interval_ms) := by
  refine ⟨fun o _ q => readsAs_of ?_ ?_ ?_ ?_ ⟨o, ?_, rfl⟩, fun o _ q => readsAs_of ?_ ?_ ?_ ?_ ⟨o, ?_, rfl⟩, ?_⟩
  · simp [ikMotionClass, ikMotionEntries, SameClass, SameType, vecVal]
  · simp [ikMotionClass, ikMotionEntries, AllValues, WellTyped, vecVal]
  · simp [ikMotionClass, ikMotionEntries, AllValues, NoMatrix, vecVal]
  · simp [ikMotionClass, ikMotionEntries, Distinct, names]
  · simp only [ikMotionClass, ikMotionEntries, ikMotionOf, toVec_vecVal]; rfl
  · simp [coordsClass, coordsEntries, SameClass, SameType, vecVal]
  · simp [coordsClass, coordsEntries, AllValues, WellTyped, vecVal]
  · simp [coordsClass, coordsEntries, AllValues, NoMatrix, vecVal]
  · simp [coordsClass, coordsEntries, Distinct, names]
  · simp only [coordsClass, coordsEntries, coordsOf, toVec_vecVal]; rfl
  · rintro ⟨c, j, t, k, i⟩ h q
    simp only at h
    refine readsAs_of ?_ ?_ ?_ ?_ ⟨⟨c, j, t, k, q.control_interval⟩, rfl, ?_⟩
    · simp [wbcClass, wbcEntries, SameClass, SameType, natVal, realVal, Scalar.type]
    · simp [wbcClass, wbcEntries, AllValues, WellTyped, natVal, realVal]
    · simp [wbcClass, wbcEntries, AllValues, NoMatrix, natVal, realVal]
    · simp [wbcClass, wbcEntries, Distinct, names]
    · have e1 : (Pepper.convertMillisecondToSecond c : ℚ) = i := by
        rw [Pepper.convertMillisecondToSecond, ← h]; ring
      simp only [wbcClass, WbcConf.derive, e1]

/-- C101: parameters of QuadProg++, qpmad and qpOASES (with all options), whatever are the options set by qpOASES in `setToMPC()`. -/
theorem C101_solvers (ints : String → ℤ) (reals : String → ℚ) :
    RestoredBy quadProgClass (fun _ => True) ∧ RestoredBy qpmadClass (fun _ => True) ∧
    RestoredBy (qpoasesClass (qpoasesOptions ints reals)) (fun p => ∃ i r, p.options = qpoasesOptions i r) := by
  refine ⟨fun o _ q => readsAs_of ?_ ?_ ?_ ?_ ⟨o, rfl, rfl⟩, fun o _ q => readsAs_of ?_ ?_ ?_ ?_ ⟨o, rfl, rfl⟩,
    fun o ho q => ?_⟩
  · simp [quadProgClass, solverEntries, SameClass, SameType, boolVal, realVal, Scalar.type]
  · simp [quadProgClass, solverEntries, AllValues, WellTyped, boolVal, realVal]
  · simp [quadProgClass, solverEntries, AllValues, NoMatrix, boolVal, realVal]
  · simp [quadProgClass, solverEntries, Distinct, names]
  · simp [qpmadClass, solverEntries, SameClass, SameType, boolVal, realVal, Scalar.type]
  · simp [qpmadClass, solverEntries, AllValues, WellTyped, boolVal, realVal]
  · simp [qpmadClass, solverEntries, AllValues, NoMatrix, boolVal, realVal]
  · simp [qpmadClass, solverEntries, Distinct, names]
  · obtain ⟨i, r, ho⟩ := ho
    refine readsAs_of ?_ ?_ ?_ ?_ ⟨o, rfl, rfl⟩
    · simp [qpoasesClass, solverEntries, SameClass, SameType, boolVal, realVal, Scalar.type, ho, qpoasesOptions_eq,
        class_options]
    · simp [qpoasesClass, solverEntries, AllValues, WellTyped, boolVal, realVal, ho, qpoasesOptions_eq, values_options]
    · simp [qpoasesClass, solverEntries, AllValues, NoMatrix, boolVal, realVal, ho, qpoasesOptions_eq, values_options]
    · simp only [qpoasesClass, ho, qpoasesOptions_eq]
      refine ⟨by simp [solverEntries, names], by simp [solverEntries, Distinct, names], ?_⟩
      refine ⟨by simp [names], by simp [names], by simp [names], distinct_options _ _ (by decide), trivial⟩

/-- C101: of a solution only the values of the variables are stored; the structure and the status are those of the object which
reads them. -/
theorem C101_solution_partial (o q : Solution ℚ) : ReadsAs solutionClass o q { q with x := o.x } := by
  refine readsAs_of ?_ ?_ ?_ ?_ ⟨{ q with x := o.x }, rfl, rfl⟩
  · simp [solutionClass, SameClass, SameType]
  · simp [solutionClass, AllValues, WellTyped]
  · simp [solutionClass, AllValues, NoMatrix]
  · simp [solutionClass, Distinct, names]

/-- C101: of the parameters of the KKT solver only those of the base class are stored; the method and the factor of regularization are
set to their defaults. -/
theorem C101_kkt_partial (o q : KktConf) : ReadsAs kktClass o q ⟨o.base, ⟨.lu, 1 / 10 ^ 8⟩⟩ := by
  refine readsAs_of ?_ ?_ ?_ ?_ ⟨_, rfl, rfl⟩
  · simp [kktClass, solverEntries, SameClass, SameType, boolVal, Scalar.type]
  · simp [kktClass, solverEntries, AllValues, WellTyped, boolVal]
  · simp [kktClass, solverEntries, AllValues, NoMatrix, boolVal]
  · simp [kktClass, solverEntries, Distinct, names]

/-- C101: what is restored of the parameters of the robot: everything but the bounds of the body, which are transposed. -/
theorem C101_pepperRobot_effect (o q : PepperRobotConf) :
    ReadsAs pepperRobotClass o q { o.derive with body_bounds := fun i j => o.body_bounds j i } := by
  refine readsAs_stored ?_ ?_ ?_ fun f hk => ?_
  · simp [pepperRobotClass, pepperRobotEntries, SameClass, SameType, mat2Val, realVal, Scalar.type]
  · simp [pepperRobotClass, pepperRobotEntries, AllValues, WellTyped, mat2Val, realVal]
  · simp [pepperRobotClass, pepperRobotEntries, Distinct, names]
  · have e : ∀ x, f = .msgpack ∨ FifteenDigits x → emitReal f x = x := by
      rintro x (rfl | hx)
      · rfl
      · cases f with
        | yaml => exact round15_exact hx
        | msgpack => rfl
    have hx : ∀ x ∈ [o.base_radius, o.max_nominal_base_velocity, o.max_nominal_base_acceleration, o.max_base_velocity,
        o.max_base_acceleration, o.body_bounds 0 0, o.body_bounds 1 0, o.body_bounds 0 1, o.body_bounds 1 1],
        emitReal f x = x := by
      intro x hx
      refine e x (hk.imp_right fun hk => ?_)
      simp only [pepperRobotClass, pepperRobotEntries, AllValues, Numbers, realVal, scalarNumbers, mat2Val, and_true,
        List.mem_cons, List.not_mem_nil, or_false, forall_eq_or_imp, forall_eq] at hk
      simp only [List.mem_cons, List.not_mem_nil, or_false] at hx
      rcases hx with rfl | rfl | rfl | rfl | rfl | rfl | rfl | rfl | rfl <;> tauto
    simp only [List.mem_cons, List.not_mem_nil, or_false, forall_eq_or_imp, forall_eq] at hx
    obtain ⟨h1, h2, h3, h4, h5, h6, h7, h8, h9⟩ := hx
    refine ⟨{ PepperRobotConf.setDefaults q with
      base_radius := o.base_radius
      max_nominal_base_velocity := o.max_nominal_base_velocity
      max_nominal_base_acceleration := o.max_nominal_base_acceleration
      max_base_velocity := o.max_base_velocity
      max_base_acceleration := o.max_base_acceleration
      body_bounds := ![![o.body_bounds 0 0, o.body_bounds 1 0], ![o.body_bounds 0 1, o.body_bounds 1 1]] }, ?_, ?_⟩
    · have he : ∀ x, emit f (.real x) = .real (emitReal f x) := fun x => by cases f <;> rfl
      simp only [pepperRobotClass, pepperRobotEntries, mapValues, stored, realVal, mat2Val, he, List.map_cons, List.map_nil,
        h1, h2, h3, h4, h5, h6, h7, h8, h9]
      rfl
    · have : (fun i j => o.body_bounds j i)
          = ![![o.body_bounds 0 0, o.body_bounds 1 0], ![o.body_bounds 0 1, o.body_bounds 1 1]] := by
        funext i j
        fin_cases i <;> fin_cases j <;> rfl
      rw [this]
      rfl

/-- C101: parameters of the robot are restored if the matrix of bounds of the body is symmetric and the derived quantities correspond
to the parameters. -/
theorem C101_pepperRobot_partial : RestoredBy pepperRobotClass fun o =>
    o.derive = o ∧ o.body_bounds 0 1 = o.body_bounds 1 0 := by
  rintro o ⟨h, hs⟩ q
  have : { o.derive with body_bounds := fun i j => o.body_bounds j i } = o := by
    have e : (fun i j => o.body_bounds j i) = o.body_bounds := by
      funext i j
      fin_cases i <;> fin_cases j
      · rfl
      · exact hs.symm
      · exact hs
      · rfl
    rw [e]
    conv_rhs => rw [← h]
    rfl
  have hr := C101_pepperRobot_effect o q
  simp only at hr this
  rw [this] at hr
  exact hr

/-! ## Objects which are not in the file -/

/-- C101: defaults of the states. -/
theorem C101_defaults_states (nan : ℚ) :
    Defaulted pointMassClass ⟨0, 0, 0⟩ ∧ Defaulted rigidBodyClass ⟨0, 0, 0, 0, 0, 0⟩ ∧
    Defaulted (wpgStateClass nan) ⟨⟨![0, 0, 814 / 1000], 0, 0⟩,
      ⟨![0, 19 / 200, 0], 0, 0, ![0, 0, 0], fun _ => nan, fun _ => nan⟩,
      ⟨![0, -(19 / 200), 0], 0, 0, ![0, 0, 0], fun _ => nan, fun _ => nan⟩, .ds, .undefined⟩ ∧
    Defaulted pepperStateClass Pepper.ModelState.default :=
  ⟨defaulted_of fun _ => rfl, defaulted_of fun _ => rfl, defaulted_of fun _ => rfl, defaulted_of fun _ => rfl⟩

/-- C101: defaults of the parameters of walking: stances start and end with double support, the first step is made with the right
foot; default feet are compatible with the derived quantities. -/
theorem C101_defaults_walking :
    Defaulted fsmClass FSMParams.default ∧
    Defaulted walkClass ⟨FSMParams.default, ![1 / 5, 0], ![1 / 5, 0], ![0, 0], 7 / 100, 0⟩ ∧
    Defaulted footClass (FootConf.ofParams ⟨1 / 5, 19 / 100, 3 / 10, 19 / 100, 1372 / 10000, 58 / 1000⟩) ∧
    Defaulted wpgMpcClass ⟨16, 100, 100, 100, 1, 1, 1 / 10, 1 / 10, 1 / 10⟩ :=
  ⟨defaulted_of fun _ => rfl, defaulted_of fun _ => rfl, defaulted_of fun _ => rfl, defaulted_of fun _ => rfl⟩

/-- C101: defaults of the parameters of Pepper, those of the robot include the derived bounds. -/
theorem C101_defaults_pepper {n m : ℕ} (d : CoordsConf n m) :
    Defaulted pepperMotionClass ⟨0, 0, 0, -1, .maintainVelocity⟩ ∧ Defaulted pepperMpcClass ⟨15, 100, 100, 1 / 10, 1 / 10⟩ ∧
    Defaulted ikMotionClass ⟨![2531976618098 / 10 ^ 15, 0, 125564931735602 / 10 ^ 15],
      ![-(402863432226587 / 10 ^ 17), 0, 75 / 100], ![0, 0, 0]⟩ ∧
    Defaulted (coordsClass d) d ∧
    ∃ r : PepperRobotConf, Defaulted pepperRobotClass r ∧ r.derive = r ∧ r.base_radius = 7 / 10 ∧
      r.max_nominal_base_velocity = 1 / 2 ∧ r.max_nominal_base_acceleration = 1 ∧ r.max_base_velocity = 14 / 10 ∧
      r.max_base_acceleration = 17 / 10 ∧ r.body_bounds = ![![-(6 / 100), 6 / 100], ![-(3 / 100), 3 / 100]] := by
  refine ⟨defaulted_of fun _ => rfl, defaulted_of fun _ => rfl, defaulted_of fun _ => rfl, defaulted_of fun _ => rfl,
    ⟨PepperRobotConf.setDefaults ⟨0, 0, 0, 0, 0, 0, 0, 0, 0, 0, 0⟩, defaulted_of fun _ => rfl, rfl, rfl, rfl, rfl, rfl, rfl, rfl⟩⟩

/-! ## Derived quantities -/

/-- C101: whatever is in the file, after the reading the derived quantities correspond to the parameters. -/
theorem C101_consistent :
    Consistent wpgMpcClass WpgMpcSampling ∧ Consistent footClass (fun p => p = FootConf.ofParams p.params) ∧
    Consistent pepperRobotClass (fun p => p.derive = p) ∧
    Consistent pepperMpcClass (fun p => 1000 * p.sampling_time = p.sampling_time_ms ∧
      1000 * p.subsampling_time = p.subsampling_time_ms) := by
  refine ⟨consistent_of (fun q => ?_) fun x y h => ?_, consistent_of (fun q => rfl) fun x y h => ?_,
    consistent_of (fun q => rfl) fun x y h => ?_, consistent_of (fun q => ?_) fun x y h => ?_⟩
  · constructor <;> norm_num [wpgMpcClass, WpgMpcConf.default]
  · have hu : x.subsampling_time_ms ≠ 0 := by
      intro e
      simp [wpgMpcClass, WpgMpcConf.finalize, require, e] at h
      cases h
    have h1 : x.sampling_time_ms % x.subsampling_time_ms = 0 := by
      by_contra e
      simp [wpgMpcClass, WpgMpcConf.finalize, require, assertThat, hu, e] at h
      cases h
    have h2 : x.tds_sampling_time_ms % x.subsampling_time_ms = 0 := by
      by_contra e
      simp [wpgMpcClass, WpgMpcConf.finalize, require, assertThat, hu, h1, e] at h
      cases h
    simp [wpgMpcClass, WpgMpcConf.finalize, require, assertThat, hu, h1, h2] at h
    injection h with h
    subst h
    refine ⟨Nat.div_mul_cancel (Nat.dvd_of_mod_eq_zero h1), Nat.div_mul_cancel (Nat.dvd_of_mod_eq_zero h2), by
      simp only; omega, ?_, ?_, ?_⟩ <;> simp only [Pepper.convertMillisecondToSecond] <;> ring
  · injection h with h; subst h; rfl
  · injection h with h; subst h; rfl
  · constructor <;> norm_num [pepperMpcClass]
  · injection h with h; subst h
    constructor <;> simp only [PepperMpcConf.derive, Pepper.convertMillisecondToSecond] <;> ring

/-- C101, refuted: the default bounds of the body of Pepper, written and read again, become contradictory (the lower bound of the
second coordinate is greater than the upper one), since matrices are transposed by the round trip. -/
theorem C101_pepperRobot_refuted :
    ¬ RestoredBy pepperRobotClass (fun o => o.derive = o) ∧
    ∀ o q, ∃ r, ReadsAs pepperRobotClass (pepperRobotClass.setDefaults o) q r ∧ r.body_bounds 1 1 < r.body_bounds 1 0 := by
  have key : ∀ o q, ∃ r, ReadsAs pepperRobotClass (pepperRobotClass.setDefaults o) q r ∧
      r.body_bounds 1 1 < r.body_bounds 1 0 := by
    intro o q
    refine ⟨_, C101_pepperRobot_effect _ q, ?_⟩
    show (3 / 100 : ℚ) < 6 / 100
    norm_num
  refine ⟨fun h => ?_, key⟩
  set o := pepperRobotClass.setDefaults ⟨0, 0, 0, 0, 0, 0, 0, 0, 0, 0, 0⟩ with ho
  obtain ⟨r, hr, hlt⟩ := key ⟨0, 0, 0, 0, 0, 0, 0, 0, 0, 0, 0⟩ o
  have h1 := hr .msgpack [("s", pepperRobotClass.entries o)] "s" true (by simp) (by simp [ho]) (.inl rfl)
  have h2 := h o rfl o .msgpack [("s", pepperRobotClass.entries o)] "s" true (by simp) (by simp) (.inl rfl)
  rw [h1] at h2
  have e : r = o := by injection (congrArg Prod.fst h2 : (Except.ok r : Res _) = .ok o)
  rw [e] at hlt
  have : (3 / 100 : ℚ) < -(3 / 100) := hlt
  norm_num at this

/-- C101, refuted: the method and the factor of regularization of the KKT solver are lost. -/
theorem C101_kkt_refuted : ¬ RestoredBy kktClass (fun _ => True) := by
  intro h
  have h1 := C101_kkt_partial ⟨⟨true, true⟩, ⟨.qr, 1⟩⟩ ⟨⟨true, true⟩, ⟨.qr, 1⟩⟩ .msgpack
    [("s", kktClass.entries ⟨⟨true, true⟩, ⟨.qr, 1⟩⟩)] "s" true (by simp) (by simp) (.inl rfl)
  have h2 := h ⟨⟨true, true⟩, ⟨.qr, 1⟩⟩ trivial ⟨⟨true, true⟩, ⟨.qr, 1⟩⟩ .msgpack
    [("s", kktClass.entries ⟨⟨true, true⟩, ⟨.qr, 1⟩⟩)] "s" true (by simp) (by simp) (.inl rfl)
  rw [h1] at h2
  cases h2

/-- C101, refuted: a solution which is read by another object has the status of that object. -/
theorem C101_solution_refuted : ¬ RestoredBy solutionClass (fun _ => True) := by
  intro h
  let o : Solution ℚ := ⟨⟨0, []⟩, [], .ok⟩
  let q : Solution ℚ := ⟨⟨0, []⟩, [], .undefined⟩
  have h1 := C101_solution_partial o q .msgpack [("s", solutionClass.entries o)] "s" true (by simp) (by simp) (.inl rfl)
  have h2 := h o trivial q .msgpack [("s", solutionClass.entries o)] "s" true (by simp) (by simp) (.inl rfl)
  rw [h1] at h2
  have e : ({ q with x := o.x } : Solution ℚ) = o := by injection (congrArg Prod.fst h2 : (Except.ok _ : Res _) = .ok o)
  have : SolverStatus.undefined = SolverStatus.ok := congrArg Solution.status e
  cases this

/-- C101, refuted: parameters of inverse kinematics are read from one file, and then from another one which does not contain them:
the control interval in milliseconds is the default one, but the control interval in seconds is the one from the first file. -/
theorem C101_wbc_refuted (q : WbcConf) : ∃ (first second : List (String × Entries)) (p r : WbcConf),
    wbcClass.read .msgpack (fileWith .msgpack first) false q "WBCParameters" [] = (.ok p, []) ∧
    wbcClass.read .msgpack (fileWith .msgpack second) false p "WBCParameters" [] = (.ok r, []) ∧
    r.control_interval_ms = 10 ∧ r.control_interval = 20 / 1000 := by
  refine ⟨[("WBCParameters", wbcEntries ⟨20, 1, 1, 1, 20 / 1000⟩)], [], ⟨20, 1, 1, 1, 20 / 1000⟩,
    ⟨10, 1 / 100, 1 / 1000, 3, 20 / 1000⟩, ?_, rfl, rfl, rfl⟩
  exact (C101_pepperIk (n := 0) (m := 0) ⟨0, 0⟩).2.2 ⟨20, 1, 1, 1, 20 / 1000⟩ (by norm_num) q .msgpack
    [("WBCParameters", wbcEntries ⟨20, 1, 1, 1, 20 / 1000⟩)] "WBCParameters" false (by simp) (by simp [wbcClass]) (.inl rfl)

/-- C101, refuted: parameters of solvers are read from one file, and then from another one which does not contain them: the flags of
the base class are not set to their defaults (`true`), the options of qpOASES are not set to their defaults either. -/
theorem C101_solvers_refuted (mpc : Entries) :
    (∀ q, ∃ first p r, kktClass.read .msgpack (fileWith .msgpack first) false q "s" [] = (.ok p, []) ∧
      kktClass.read .msgpack (fileWith .msgpack []) false p "s" [] = (.ok r, []) ∧ r.base.crashOnAnyFailure = false) ∧
    (∀ q, ∃ first p r, quadProgClass.read .msgpack (fileWith .msgpack first) false q "s" [] = (.ok p, []) ∧
      quadProgClass.read .msgpack (fileWith .msgpack []) false p "s" [] = (.ok r, []) ∧ r.base.crashOnAnyFailure = false) ∧
    (∀ q, ∃ first p r, qpmadClass.read .msgpack (fileWith .msgpack first) false q "s" [] = (.ok p, []) ∧
      qpmadClass.read .msgpack (fileWith .msgpack []) false p "s" [] = (.ok r, []) ∧ r.base.crashOnAnyFailure = false) ∧
    (∀ p, ∃ r, (qpoasesClass mpc).read .msgpack (fileWith .msgpack []) false p "s" [] = (.ok r, []) ∧
      r.max_number_of_iterations = 1000 ∧ r.base = p.base ∧ r.options = p.options) := by
  refine ⟨fun q => ?_, fun q => ?_, fun q => ?_, fun p => ⟨_, rfl, rfl, rfl, rfl⟩⟩
  · refine ⟨[("s", kktClass.entries ⟨⟨false, true⟩, ⟨.lu, 1⟩⟩)], _, _, C101_kkt_partial ⟨⟨false, true⟩, ⟨.lu, 1⟩⟩ q .msgpack
      [("s", kktClass.entries ⟨⟨false, true⟩, ⟨.lu, 1⟩⟩)] "s" false (by simp) (by simp) (.inl rfl), rfl, rfl⟩
  · refine ⟨[("s", quadProgClass.entries ⟨⟨false, true⟩, 1⟩)], ⟨⟨false, true⟩, 1⟩, _,
      (C101_solvers 0 0).1 ⟨⟨false, true⟩, 1⟩ trivial q .msgpack
      [("s", quadProgClass.entries ⟨⟨false, true⟩, 1⟩)] "s" false (by simp) (by simp) (.inl rfl), rfl, rfl⟩
  · refine ⟨[("s", qpmadClass.entries ⟨⟨false, true⟩, 1, 0, 1, 1⟩)], ⟨⟨false, true⟩, 1, 0, 1, 1⟩, _,
      (C101_solvers 0 0).2.1 ⟨⟨false, true⟩, 1, 0, 1, 1⟩ trivial q .msgpack
      [("s", qpmadClass.entries ⟨⟨false, true⟩, 1, 0, 1, 1⟩)] "s" false (by simp) (by simp) (.inl rfl), rfl, rfl⟩

/-- C101, refuted: if the state of the center of mass is missing in the section of the state of a model, it is not the default one of
the model: the center of mass is at the origin (for Pepper, so is the body). -/
theorem C101_members_refuted (nan : ℚ) (q : WpgStateConf) (p : Pepper.ModelState ℚ) :
    (∃ r, (wpgStateClass nan).read .msgpack (fileWith .msgpack [("ModelState",
        .leaf "stance_type" (.enum 2) (.leaf "next_stance_type" (.enum 3) .nil))]) false q "ModelState" [] = (.ok r, []) ∧
      r.stance_type = .lss ∧ r.next_stance_type = .rss ∧ r.com_state.position 2 = 0 ∧
      (WpgStateConf.default nan).com_state.position 2 = 814 / 1000) ∧
    ∃ r, pepperStateClass.read .msgpack (fileWith .msgpack [("ModelState",
        .leaf "base_mass" (.scalar (.real 1)) (.leaf "body_mass" (.scalar (.real 2)) .nil))]) false p "ModelState" []
          = (.ok r, []) ∧
      r.base_mass = 1 ∧ r.body_mass = 2 ∧ r.body_state.position 2 = 0 ∧
      (Pepper.ModelState.default (K := ℚ)).body_state.position 2 = 750001340031501 / 10 ^ 15 := by
  constructor
  · refine ⟨⟨Pepper.defaultPointMass, Pepper.defaultRigidBody, Pepper.defaultRigidBody, .lss, .rss⟩, ?_, rfl, rfl, rfl, rfl⟩
    refine read_found (sec := .leaf "stance_type" (.scalar (.int 2)) (.leaf "next_stance_type" (.scalar (.int 3)) .nil)) rfl
      (e := wpgStateEntries ⟨Pepper.defaultPointMass, Pepper.defaultRigidBody, Pepper.defaultRigidBody, .lss, .rss⟩) rfl ?_ rfl
    simp only [wpgStateClass, wpgStateEntries, wpgStateOf, rigidBodyEntries, rigidBodyOf, pointMassEntries, pointMassOf,
      toVec_vecVal, Val.toEnum, stanceOf_code, confOk_bind]
    rfl
  · refine ⟨⟨Pepper.defaultRigidBody, Pepper.defaultPointMass, 1, 2⟩, ?_, rfl, rfl, rfl, rfl⟩
    refine read_found (sec := .leaf "base_mass" (.scalar (.real 1)) (.leaf "body_mass" (.scalar (.real 2)) .nil)) rfl
      (e := pepperStateEntries ⟨Pepper.defaultRigidBody, Pepper.defaultPointMass, 1, 2⟩) rfl ?_ rfl
    simp only [pepperStateClass, pepperStateEntries, pepperStateOf, rigidBodyEntries, rigidBodyOf, pointMassEntries,
      pointMassOf, toVec_vecVal]
    rfl

/-! ## Examples -/

/-- Parameters of walking with four subsamples are written in YAML between other objects and read by an object with other values. -/
example : wpgMpcClass.read .yaml (fileWith .yaml [("a", walkEntries WalkConf.default),
      ("mpc", wpgMpcEntries ⟨10, 100, 25, 50, 4, 2, 1 / 10, 1 / 40, 1 / 20⟩)]) true ⟨1, 7, 7, 7, 1, 1, 0, 0, 0⟩ "mpc"
      (openFile .yaml (fileWith .yaml [("a", walkEntries WalkConf.default),
        ("mpc", wpgMpcEntries ⟨10, 100, 25, 50, 4, 2, 1 / 10, 1 / 40, 1 / 20⟩)]))
    = (.ok ⟨10, 100, 25, 50, 4, 2, 1 / 10, 1 / 40, 1 / 20⟩, openFile .yaml (fileWith .yaml [("a", walkEntries WalkConf.default),
        ("mpc", wpgMpcEntries ⟨10, 100, 25, 50, 4, 2, 1 / 10, 1 / 40, 1 / 20⟩)])) :=
  C101_wpgMpc ⟨10, 100, 25, 50, 4, 2, 1 / 10, 1 / 40, 1 / 20⟩ (by constructor <;> norm_num) _ .yaml
    [("a", walkEntries WalkConf.default), ("mpc", wpgMpcEntries ⟨10, 100, 25, 50, 4, 2, 1 / 10, 1 / 40, 1 / 20⟩)] "mpc" true
    (by simp) (by simp [wpgMpcClass]) (.inr (by simp [wpgMpcClass, wpgMpcEntries, AllValues, Numbers, natVal, scalarNumbers]))

/-- Parameters which are not valid are rejected. -/
example : (wpgMpcClass.read .msgpack (fileWith .msgpack [("mpc", wpgMpcEntries ⟨10, 100, 30, 50, 0, 0, 0, 0, 0⟩)]) true
    WpgMpcConf.default "mpc" []).1 = .error .thrown := rfl

/-- The condition for the feet and the one for the bounds of the body hold for some objects. -/
example : FootConf.ofParams defaultFeet = FootConf.ofParams (FootConf.ofParams defaultFeet).params := rfl

example : ∃ o : PepperRobotConf, o.derive = o ∧ o.body_bounds 0 1 = o.body_bounds 1 0 ∧ o.body_bounds 0 0 ≠ 0 :=
  ⟨PepperRobotConf.derive ⟨1, 1, 1, 1, 1, ![![-1, 1], ![1, 2]], 0, 0, 0, 0, 0⟩, rfl, rfl, by
    show (-1 : ℚ) ≠ 0
    norm_num⟩

end Humoto.Config
