import Verif.Lemmas.BlockObject
import Verif.Props.Kronecker

/-!
# Block matrices as objects
-/

namespace Humoto

open BlockObject Spec

variable {K : Type}

/-! ## C99: histories -/

/-- **C99.** After the construction and each sequence of completed operations the reported numbers of blocks and the size of the block describe a
partition of the matrix. -/
theorem C99_history [Zero K] (tr tc rows cols : ℤ) (m : Mat K) (o o' : BlockObject K) (l : List (Op K))
    (hc : construct tr tc m rows cols = .ok o) (hr : run l o = .ok o') : Partitioned o' := by
  obtain ⟨h1, h2, h3, -⟩ := construct_inv hc
  have hi := And.intro h1 h2
  clear hc h1 h2
  induction l generalizing o with
  | nil => cases hr; exact h3
  | cons op l ih =>
    unfold run at hr
    rcases e : o.apply op with ⟨o1, e1 | ⟨⟨⟩⟩⟩ <;> rw [e] at hr
    · cases hr
    · have := apply_inv op hi
      rw [e] at this
      exact ih o1 hr (apply_partitioned op hi h3 e) this

/-- **C99.** Exceptions in the past are forgiven: whatever has been done to an object and whatever exceptions have been caught, an object is
partitioned again when one of the operations which determine sizes is completed, and it remains so while operations are completed. -/
theorem C99_recovers [Zero K] (tr tc rows cols : ℤ) (m : Mat K) (o o1 o2 o3 : BlockObject K) (past : List (Op K)) (op : Op K) (future : List (Op K))
    (hc : construct tr tc m rows cols = .ok o) (hp : runCaught past o = .ok o1) (hs : op.sizing = true) (ho : o1.apply op = (o2, .ok ()))
    (hf : run future o2 = .ok o3) : Partitioned o3 := by
  obtain ⟨h1, h2, -⟩ := construct_inv hc
  have hi := runCaught_inv past ⟨h1, h2⟩ hp
  have h3 := sizing_ok op hs hi ho
  have hi2 := apply_inv op hi
  rw [ho] at hi2
  clear ho hp hc
  have hi2' : InvRows o2 ∧ InvCols o2 := hi2
  clear hi2
  induction future generalizing o2 with
  | nil => cases hf; exact h3
  | cons op l ih =>
    unfold run at hf
    rcases e : o2.apply op with ⟨o4, e1 | ⟨⟨⟩⟩⟩ <;> rw [e] at hf
    · cases hf
    · have := apply_inv op hi2'
      rw [e] at this
      exact ih o4 hf (apply_partitioned op hi2' h3 e) this

/-- **C99.** Which objects can be constructed: a size which is given by the template is positive and is not given again, a size which is given at run time
divides the size of the matrix, or it is not given at all. -/
theorem C99_construct (tr tc rows cols : ℤ) (m : Mat K) :
    (∃ o, construct tr tc m rows cols = .ok o) ↔
      ((tr = -1 ∧ (rows = 0 ∨ 0 < rows ∧ (m.rows : ℤ) % rows = 0)) ∨ (0 < tr ∧ rows = 0 ∧ (m.rows : ℤ) % tr = 0)) ∧
      ((tc = -1 ∧ (cols = 0 ∨ 0 < cols ∧ (m.cols : ℤ) % cols = 0)) ∨ (0 < tc ∧ cols = 0 ∧ (m.cols : ℤ) % tc = 0)) := by
  constructor
  · rintro ⟨o, h⟩
    obtain ⟨h1, h2, ⟨p1, p2⟩, rfl, rfl, rfl, a, b, c, d⟩ := construct_inv h
    constructor
    · rcases h1 with ⟨h, e, -⟩ | ⟨h, e⟩ | ⟨h, e⟩
      · exact Or.inl ⟨h, Or.inl (by rw [← a h, e])⟩
      · refine Or.inl ⟨h, Or.inr ⟨by rw [← a h]; exact e, ?_⟩⟩
        rcases p1 with ⟨p, n, -, -, q⟩ | ⟨-, p, -⟩
        · unfold blockRows at q
          rw [if_neg (by omega)] at q
          rw [← q, ← a h]
          exact Int.mul_emod_right _ _
        · unfold blockRows at p
          rw [if_neg (by omega)] at p
          omega
      · refine Or.inr ⟨h, c (by omega), ?_⟩
        rcases p1 with ⟨p, n, -, -, q⟩ | ⟨p, -, -⟩
        · unfold blockRows at q
          rw [if_pos h] at q
          rw [← q]
          exact Int.mul_emod_right _ _
        · omega
    · rcases h2 with ⟨h, e, -⟩ | ⟨h, e⟩ | ⟨h, e⟩
      · exact Or.inl ⟨h, Or.inl (by rw [← b h, e])⟩
      · refine Or.inl ⟨h, Or.inr ⟨by rw [← b h]; exact e, ?_⟩⟩
        rcases p2 with ⟨p, n, -, -, q⟩ | ⟨-, p, -⟩
        · unfold blockCols at q
          rw [if_neg (by omega)] at q
          rw [← q, ← b h]
          exact Int.mul_emod_right _ _
        · unfold blockCols at p
          rw [if_neg (by omega)] at p
          omega
      · refine Or.inr ⟨h, d (by omega), ?_⟩
        rcases p2 with ⟨p, n, -, -, q⟩ | ⟨p, -, -⟩
        · unfold blockCols at q
          rw [if_pos h] at q
          rw [← q]
          exact Int.mul_emod_right _ _
        · omega
  · rintro ⟨hr, hc⟩
    generalize hb : (⟨tr, tc, m, none, none, 0, 0⟩ : BlockObject K) = b
    have er : ∃ r, b.initializeRows rows = ({ b with br := r }, .ok ()) ∧ (tr = -1 → r = rows) ∧ (tr ≠ -1 → r = tr) := by
      subst hb
      unfold initializeRows
      simp only
      split_ifs with h1 h2
      · exact ⟨_, rfl, fun _ => rfl, fun h => absurd h1 h⟩
      · exact ⟨_, rfl, fun h => absurd h h1, fun _ => rfl⟩
      · omega
    obtain ⟨r, er, r1, r2⟩ := er
    have ec : ∃ c, ({ b with br := r } : BlockObject K).initializeCols cols = ({ b with br := r, bc := c }, .ok ()) ∧ (tc = -1 → c = cols) ∧
        (tc ≠ -1 → c = tc) := by
      subst hb
      unfold initializeCols
      simp only
      split_ifs with h1 h2
      · exact ⟨_, rfl, fun _ => rfl, fun h => absurd h1 h⟩
      · exact ⟨_, rfl, fun h => absurd h h1, fun _ => rfl⟩
      · omega
    obtain ⟨c, ec, c1, c2⟩ := ec
    obtain ⟨n, k, ef⟩ := finalize_complete (o := { b with br := r, bc := c }) (by
      subst hb
      unfold blockRows
      rcases hr with ⟨h, h1 | ⟨h1, h2⟩⟩ | ⟨h1, -, h2⟩
      · exact Or.inl ⟨h, by rw [r1 h]; exact h1⟩
      · right
        simp only [r1 h]
        rw [if_neg (by omega)]
        exact ⟨h1, h2⟩
      · right
        simp only
        rw [if_pos h1]
        exact ⟨h1, h2⟩) (by
      subst hb
      unfold blockCols
      rcases hc with ⟨h, h1 | ⟨h1, h2⟩⟩ | ⟨h1, -, h2⟩
      · exact Or.inl ⟨h, by rw [c1 h]; exact h1⟩
      · right
        simp only [c1 h]
        rw [if_neg (by omega)]
        exact ⟨h1, h2⟩
      · right
        simp only
        rw [if_pos h1]
        exact ⟨h1, h2⟩)
    refine ⟨{ b with br := r, bc := c, nv := n, nh := k }, ?_⟩
    unfold construct initializeBlockSize
    rw [hb, er]
    simp only [Outcome.next]
    rw [ec]
    simp only
    rw [ef]

theorem reachableObject_inv [Zero K] {o : BlockObject K} (h : ReachableObject o) : InvRows o ∧ InvCols o := by
  obtain ⟨tr, tc, rows, cols, m, s, past, h1, h2⟩ := h
  obtain ⟨a, b, -⟩ := construct_inv h1
  exact runCaught_inv past ⟨a, b⟩ h2

/-! ## C99: what operations do -/

/-- **C99.** `set` is completed if and only if the given matrix consists of whole blocks; the matrix is replaced in either case. -/
theorem C99_set [Zero K] (o : BlockObject K) (h : ReachableObject o) (A : Mat K) :
    ((o.set A).2 = .ok () ↔ (o.blockRows = 0 ∨ (A.rows : ℤ) % o.blockRows = 0) ∧ (o.blockCols = 0 ∨ (A.cols : ℤ) % o.blockCols = 0)) ∧
      (o.set A).1.m = A := by
  have hi := reachableObject_inv h
  exact ⟨finalize_iff (o := { o with m := A }) hi, (finalize_m { o with m := A }).1⟩

theorem resized_blocks [Zero K] {o : BlockObject K} (h : ReachableObject o) (e : ℕ → ℕ → K) (nv nh : ℕ) (hr : 0 < o.blockRows) (hc : 0 < o.blockCols) :
    ∃ o', (o.resizeRaw (nv * o.blockRows) (nh * o.blockCols) e).next finalize = (o', .ok ()) ∧
      HasBlocks o' nv nh o.blockRows.toNat o.blockCols.toNat ∧ o'.m.e = e := by
  have hi := reachableObject_inv h
  have p1 : 0 ≤ (nv : ℤ) * o.blockRows := Int.mul_nonneg (by omega) hr.le
  have p2 : 0 ≤ (nh : ℤ) * o.blockCols := Int.mul_nonneg (by omega) hc.le
  have e1 : o.resizeRaw (nv * o.blockRows) (nh * o.blockCols) e =
      ({ o with m := ⟨((nv : ℤ) * o.blockRows).toNat, ((nh : ℤ) * o.blockCols).toNat, e⟩ }, .ok ()) := by
    unfold resizeRaw
    rw [if_pos ⟨p1, p2⟩]
  rw [e1]
  obtain ⟨n, k, ef⟩ := finalize_complete (o := { o with m := ⟨((nv : ℤ) * o.blockRows).toNat, ((nh : ℤ) * o.blockCols).toNat, e⟩ })
    (Or.inr ⟨hr, by
      show ((((nv : ℤ) * o.blockRows).toNat : ℕ) : ℤ) % o.blockRows = 0
      rw [Int.toNat_of_nonneg p1]
      exact Int.mul_emod_left _ _⟩)
    (Or.inr ⟨hc, by
      show ((((nh : ℤ) * o.blockCols).toNat : ℕ) : ℤ) % o.blockCols = 0
      rw [Int.toNat_of_nonneg p2]
      exact Int.mul_emod_left _ _⟩)
  obtain ⟨⟨q1, q2⟩, -⟩ := BlockObject.finalize_ok (o := { o with m := ⟨((nv : ℤ) * o.blockRows).toNat, ((nh : ℤ) * o.blockCols).toNat, e⟩ }) hi ef
  refine ⟨_, ef, ⟨(Int.toNat_of_nonneg hr.le).symm, (Int.toNat_of_nonneg hc.le).symm, by omega, by omega, ?_, ?_, ?_, ?_⟩, rfl⟩
  · rcases q1 with ⟨-, x, a, -, b⟩ | ⟨-, a, -⟩
    · have b' : o.blockRows * x = (((nv : ℤ) * o.blockRows).toNat : ℕ) := b
      rw [Int.toNat_of_nonneg p1, mul_comm] at b'
      have : (x : ℤ) = nv := mul_right_cancel₀ hr.ne' b'
      rw [a, this]
    · have a' : o.blockRows = 0 := a
      omega
  · rcases q2 with ⟨-, x, a, -, b⟩ | ⟨-, a, -⟩
    · have b' : o.blockCols * x = (((nh : ℤ) * o.blockCols).toNat : ℕ) := b
      rw [Int.toNat_of_nonneg p2, mul_comm] at b'
      have : (x : ℤ) = nh := mul_right_cancel₀ hc.ne' b'
      rw [a, this]
    · have a' : o.blockCols = 0 := a
      omega
  · show ((nv : ℤ) * o.blockRows).toNat = nv * o.blockRows.toNat
    rw [Int.toNat_mul (by omega) hr.le]
    simp
  · show ((nh : ℤ) * o.blockCols).toNat = nh * o.blockCols.toNat
    rw [Int.toNat_mul (by omega) hc.le]
    simp

/-- **C99.** When the size of a block is known, `resize` is completed, and the object has exactly the requested numbers of blocks; so is `setZero`, and
all entries are zeros. -/
theorem C99_resize [Zero K] (o : BlockObject K) (h : ReachableObject o) (junk : ℕ → ℕ → K) (nv nh : ℕ) (hr : 0 < o.blockRows) (hc : 0 < o.blockCols) :
    (∃ o', o.resize junk nv nh = (o', .ok ()) ∧ HasBlocks o' nv nh o.blockRows.toNat o.blockCols.toNat) ∧
    ∃ o', o.setZero nv nh = (o', .ok ()) ∧ HasBlocks o' nv nh o.blockRows.toNat o.blockCols.toNat ∧ ∀ i j, o'.m.e i j = 0 := by
  obtain ⟨o1, e1, h1, -⟩ := resized_blocks h junk nv nh hr hc
  obtain ⟨o2, e2, h2, h3⟩ := resized_blocks h (fun _ _ => 0) nv nh hr hc
  exact ⟨⟨o1, e1, h1⟩, o2, e2, h2, fun i j => by rw [h3]⟩

/-- **C99.** When the size of a block is not known, `resize` and `setZero` make a matrix without rows or columns, whatever numbers are requested. -/
theorem C99_resize_unknown [Zero K] (o : BlockObject K) (h : ReachableObject o) (junk : ℕ → ℕ → K) (nv nh : ℕ) (hr : o.blockRows = 0)
    (hc : o.blockCols = 0) : ∃ o', o.resize junk nv nh = (o', .ok ()) ∧ o'.m.rows = 0 ∧ o'.m.cols = 0 := by
  have hi := reachableObject_inv h
  have e1 : o.resizeRaw (nv * o.blockRows) (nh * o.blockCols) junk = ({ o with m := ⟨0, 0, junk⟩ }, .ok ()) := by
    unfold resizeRaw
    rw [hr, hc, mul_zero, mul_zero, if_pos ⟨le_refl _, le_refl _⟩]
    rfl
  unfold BlockObject.resize
  rw [e1]
  have hf := (finalize_iff (o := { o with m := ⟨0, 0, junk⟩ }) hi).mpr ⟨Or.inl hr, Or.inl hc⟩
  have hm := (finalize_m { o with m := (⟨0, 0, junk⟩ : Mat K) }).1
  rcases e2 : finalize { o with m := (⟨0, 0, junk⟩ : Mat K) } with ⟨o2, r⟩
  rw [e2] at hf hm
  obtain rfl : r = .ok () := hf
  refine ⟨o2, e2, ?_, ?_⟩
  · have hm' : o2.m = _ := hm
    rw [hm']
  · have hm' : o2.m = _ := hm
    rw [hm']

/-- **C99.** `setBlockSize` is completed if and only if the sizes which are given by the template are not given again, the other sizes are positive, and the
matrix consists of whole blocks of this size. -/
theorem C99_setBlockSize [Zero K] (o : BlockObject K) (h : ReachableObject o) (rows cols : ℤ) :
    (o.setBlockSize rows cols).2 = .ok () ↔
      ((o.tr = -1 ∧ 0 < rows ∧ (o.m.rows : ℤ) % rows = 0) ∨ (o.tr ≠ -1 ∧ rows = 0 ∧ (o.m.rows : ℤ) % o.tr = 0)) ∧
      ((o.tc = -1 ∧ 0 < cols ∧ (o.m.cols : ℤ) % cols = 0) ∨ (o.tc ≠ -1 ∧ cols = 0 ∧ (o.m.cols : ℤ) % o.tc = 0)) := by
  have hi := reachableObject_inv h
  have pr : o.tr = -1 ∨ 0 < o.tr := by rcases hi.1 with a | a | a <;> omega
  have pc : o.tc = -1 ∨ 0 < o.tc := by rcases hi.2 with a | a | a <;> omega
  have main : (o.tr ≠ -1 ∨ 0 < rows) → (o.tc ≠ -1 ∨ 0 < cols) → (o.tr ≠ -1 → rows = 0) → (o.tc ≠ -1 → cols = 0) →
      ((o.setBlockSize rows cols).2 = .ok () ↔ (o.m.rows : ℤ) % (if o.tr = -1 then rows else o.tr) = 0 ∧
        (o.m.cols : ℤ) % (if o.tc = -1 then cols else o.tc) = 0) := by
    intro h1 h2 h3 h4
    have e : o.initializeBlockSize rows cols =
        ({ o with br := if o.tr = -1 then rows else o.tr, bc := if o.tc = -1 then cols else o.tc }, .ok ()) := by
      unfold initializeBlockSize initializeRows
      by_cases c1 : o.tr = -1
      · rw [if_pos c1, if_pos c1]
        simp only [Outcome.next, initializeCols]
        by_cases c2 : o.tc = -1
        · rw [if_pos c2, if_pos c2]
        · rw [if_neg c2, if_neg c2, if_pos (h4 c2)]
      · rw [if_neg c1, if_pos (h3 c1), if_neg c1]
        simp only [Outcome.next, initializeCols]
        by_cases c2 : o.tc = -1
        · rw [if_pos c2, if_pos c2]
        · rw [if_neg c2, if_neg c2, if_pos (h4 c2)]
    have hj := initializeBlockSize_inv hi h1 h2
    unfold BlockObject.setBlockSize
    rw [if_pos h1, if_pos h2, e]
    rw [e] at hj
    show (finalize _).2 = _ ↔ _
    rw [finalize_iff hj]
    unfold blockRows blockCols
    simp only
    by_cases c1 : o.tr = -1 <;> by_cases c2 : o.tc = -1
    · simp only [c1, c2, if_true]
      norm_num
      omega
    · simp only [c1, if_neg c2, if_true, if_pos (show 0 < o.tc by omega)]
      norm_num
      omega
    · simp only [c2, if_neg c1, if_true, if_pos (show 0 < o.tr by omega)]
      norm_num
      omega
    · simp only [if_neg c1, if_neg c2, if_pos (show 0 < o.tr by omega), if_pos (show 0 < o.tc by omega)]
      omega
  by_cases c : (o.tr ≠ -1 ∨ 0 < rows) ∧ (o.tc ≠ -1 ∨ 0 < cols)
  · by_cases d : (o.tr ≠ -1 → rows = 0) ∧ (o.tc ≠ -1 → cols = 0)
    · rw [main c.1 c.2 d.1 d.2]
      by_cases c1 : o.tr = -1 <;> by_cases c2 : o.tc = -1
      · rw [if_pos c1, if_pos c2]; omega
      · rw [if_pos c1, if_neg c2]
        constructor
        · rintro ⟨a, b⟩; exact ⟨Or.inl ⟨c1, by omega, a⟩, Or.inr ⟨c2, d.2 c2, b⟩⟩
        · rintro ⟨a, b⟩
          exact ⟨by rcases a with a | a <;> [exact a.2.2; exact absurd c1 a.1], by rcases b with b | b <;> [exact absurd b.1 c2; exact b.2.2]⟩
      · rw [if_neg c1, if_pos c2]
        constructor
        · rintro ⟨a, b⟩; exact ⟨Or.inr ⟨c1, d.1 c1, a⟩, Or.inl ⟨c2, by omega, b⟩⟩
        · rintro ⟨a, b⟩
          exact ⟨by rcases a with a | a <;> [exact absurd a.1 c1; exact a.2.2], by rcases b with b | b <;> [exact b.2.2; exact absurd c2 b.1]⟩
      · rw [if_neg c1, if_neg c2]
        constructor
        · rintro ⟨a, b⟩; exact ⟨Or.inr ⟨c1, d.1 c1, a⟩, Or.inr ⟨c2, d.2 c2, b⟩⟩
        · rintro ⟨a, b⟩
          exact ⟨by rcases a with a | a <;> [exact absurd a.1 c1; exact a.2.2], by rcases b with b | b <;> [exact absurd b.1 c2; exact b.2.2]⟩
    · constructor
      · intro e
        exfalso
        unfold BlockObject.setBlockSize at e
        rw [if_pos c.1, if_pos c.2] at e
        rcases e1 : o.initializeBlockSize rows cols with ⟨o1, x | ⟨⟨⟩⟩⟩ <;> rw [e1] at e
        · cases e
        · obtain ⟨o2, e2, e3⟩ := next_ok e1
          obtain ⟨a1, a2⟩ := initializeRows_ok e2
          obtain ⟨a3, a4⟩ := initializeCols_ok e3
          rw [a1] at a4
          exact d ⟨a2, a4⟩
      · rintro ⟨a, b⟩
        exfalso
        apply d
        constructor
        · intro hn; rcases a with a | a
          · exact absurd a.1 hn
          · exact a.2.1
        · intro hn; rcases b with b | b
          · exact absurd b.1 hn
          · exact b.2.1
  · constructor
    · intro e
      exfalso
      unfold BlockObject.setBlockSize at e
      split_ifs at e with h1 h2
      exact c ⟨h1, h2⟩
    · rintro ⟨a, b⟩
      exfalso
      apply c
      constructor
      · rcases a with a | a
        · exact Or.inr a.2.1
        · exact Or.inl a.1
      · rcases b with b | b
        · exact Or.inr b.2.1
        · exact Or.inl b.1

/-! ## C99: access -/

/-- **C99.** An object which is partitioned and whose sizes of a block are known has blocks. -/
theorem C99_has_blocks (o : BlockObject K) (h : Partitioned o) (hr : 0 < o.blockRows) (hc : 0 < o.blockCols) :
    ∃ nv nh, HasBlocks o nv nh o.blockRows.toNat o.blockCols.toNat := by
  obtain ⟨p, q⟩ := h
  rcases p with ⟨-, n, p1, -, p2⟩ | ⟨-, p, -⟩
  · rcases q with ⟨-, k, q1, -, q2⟩ | ⟨-, q, -⟩
    · refine ⟨n, k, (Int.toNat_of_nonneg hr.le).symm, (Int.toNat_of_nonneg hc.le).symm, by omega, by omega, p1, q1, ?_, ?_⟩
      · have := Int.toNat_of_nonneg hr.le
        rw [← this] at p2
        rw [Nat.mul_comm]
        exact_mod_cast p2.symm
      · have := Int.toNat_of_nonneg hc.le
        rw [← this] at q2
        rw [Nat.mul_comm]
        exact_mod_cast q2.symm
    · omega
  · omega

/-- Blocks, and ranges of blocks in both directions. -/
theorem get_range {o : BlockObject K} {nv nh br bc : ℕ} (h : HasBlocks o nv nh br bc) {i j a b : ℕ} (hi : i + a ≤ nv) (hj : j + b ≤ nh) :
    ∃ B, o.get ⟨i * o.blockRows, j * o.blockCols, a * o.blockRows, b * o.blockCols⟩ = .ok B ∧
      PartOf o.m (i * br) (j * bc) (a * br) (b * bc) B := by
  obtain ⟨h1, h2, h3, h4, -, -, h5, h6⟩ := h
  have g1 : i * br + a * br ≤ nv * br := by rw [← Nat.add_mul]; exact Nat.mul_le_mul_right _ hi
  have g2 : j * bc + b * bc ≤ nh * bc := by rw [← Nat.add_mul]; exact Nat.mul_le_mul_right _ hj
  rw [h1, h2]
  have z : ∀ x y : ℕ, (x : ℤ) * (y : ℤ) = ((x * y : ℕ) : ℤ) := fun x y => (Nat.cast_mul x y).symm
  rw [z, z, z, z]
  unfold BlockObject.get
  rw [require_true]
  · simp only [Int.toNat_natCast]
    refine ⟨⟨a * br, b * bc, fun r c => o.m.e (i * br + r) (j * bc + c)⟩, ?_, rfl, rfl, fun _ _ _ _ => rfl⟩
    show o.m.block _ _ _ _ = _
    unfold Mat.block
    rw [if_pos ⟨by rw [h5]; exact g1, by rw [h6]; exact g2⟩]
  · unfold Place.within
    simp only [h5, h6]
    refine ⟨by omega, by omega, by omega, by omega, by exact_mod_cast g1, by exact_mod_cast g2⟩

/-- **C99.** Access to a block in range gives the entries of this block, access to a part of a column or a row of blocks gives the entries of these
blocks. -/
theorem C99_access (o : BlockObject K) (nv nh br bc : ℕ) (h : HasBlocks o nv nh br bc) :
    (∀ i j : ℕ, i < nv → j < nh → ∃ B, o.get (o.at_ i j) = .ok B ∧ PartOf o.m (i * br) (j * bc) br bc B) ∧
    (∀ i : ℕ, i < nv → i < nh → ∃ B, o.get (o.diagonal i) = .ok B ∧ PartOf o.m (i * br) (i * bc) br bc B) ∧
    (∀ j first num : ℕ, j < nh → first + num ≤ nv →
      ∃ B, o.get (o.columnPart j first num) = .ok B ∧ PartOf o.m (first * br) (j * bc) (num * br) bc B) ∧
    (∀ j first : ℕ, j < nh → first ≤ nv →
      ∃ p B, o.column j first = .ok p ∧ o.get p = .ok B ∧ PartOf o.m (first * br) (j * bc) ((nv - first) * br) bc B) ∧
    (∀ i first num : ℕ, i < nv → first + num ≤ nh →
      ∃ B, o.get (o.rowPart i first num) = .ok B ∧ PartOf o.m (i * br) (first * bc) br (num * bc) B) ∧
    (∀ i first : ℕ, i < nv → first ≤ nh →
      ∃ p B, o.row i first = .ok p ∧ o.get p = .ok B ∧ PartOf o.m (i * br) (first * bc) br ((nh - first) * bc) B) := by
  have one : ∀ x : ℤ, ((1 : ℕ) : ℤ) * x = x := fun x => by norm_num
  have blk : ∀ i j : ℕ, i < nv → j < nh → ∃ B, o.get (o.at_ i j) = .ok B ∧ PartOf o.m (i * br) (j * bc) br bc B := by
    intro i j hi hj
    obtain ⟨B, e, p⟩ := get_range h (i := i) (j := j) (a := 1) (b := 1) hi hj
    rw [one, one] at e
    rw [Nat.one_mul, Nat.one_mul] at p
    exact ⟨B, e, p⟩
  have col : ∀ j first num : ℕ, j < nh → first + num ≤ nv →
      ∃ B, o.get (o.columnPart j first num) = .ok B ∧ PartOf o.m (first * br) (j * bc) (num * br) bc B := by
    intro j first num hj hn
    obtain ⟨B, e, p⟩ := get_range h (i := first) (j := j) (a := num) (b := 1) hn hj
    rw [one] at e
    rw [Nat.one_mul] at p
    exact ⟨B, e, p⟩
  have rw_ : ∀ i first num : ℕ, i < nv → first + num ≤ nh →
      ∃ B, o.get (o.rowPart i first num) = .ok B ∧ PartOf o.m (i * br) (first * bc) br (num * bc) B := by
    intro i first num hi hn
    obtain ⟨B, e, p⟩ := get_range h (i := i) (j := first) (a := 1) (b := num) hi hn
    rw [one] at e
    rw [Nat.one_mul] at p
    exact ⟨B, e, p⟩
  refine ⟨blk, fun i hi hj => blk i i hi hj, col, ?_, rw_, ?_⟩
  · intro j first hj hf
    obtain ⟨B, e, p⟩ := col j first (nv - first) hj (by omega)
    refine ⟨_, B, ?_, e, p⟩
    have h5 : read o.nv = .ok (nv : ℤ) := h.2.2.2.2.1
    unfold column
    rw [h5]
    show Except.ok _ = _
    rw [Nat.cast_sub hf]
  · intro i first hi hf
    obtain ⟨B, e, p⟩ := rw_ i first (nh - first) hi (by omega)
    refine ⟨_, B, ?_, e, p⟩
    have h5 : read o.nh = .ok (nh : ℤ) := h.2.2.2.2.2.1
    unfold row
    rw [h5]
    show Except.ok _ = _
    rw [Nat.cast_sub hf]

/-- **C99.** Each entry of the matrix belongs to exactly one block. -/
theorem C99_covered (o : BlockObject K) (nv nh br bc : ℕ) (h : HasBlocks o nv nh br bc) (r c : ℕ) (hr : r < o.m.rows) (hc : c < o.m.cols) :
    ∃! p : (ℕ × ℕ) × ℕ × ℕ, (p.1.1 < nv ∧ p.1.2 < nh) ∧ (p.2.1 < br ∧ p.2.2 < bc) ∧ r = p.1.1 * br + p.2.1 ∧ c = p.1.2 * bc + p.2.2 := by
  obtain ⟨-, -, h3, h4, -, -, h5, h6⟩ := h
  refine ⟨((r / br, c / bc), r % br, c % bc), ⟨⟨?_, ?_⟩, ⟨Nat.mod_lt _ h3, Nat.mod_lt _ h4⟩, ?_, ?_⟩, ?_⟩
  · exact Nat.div_lt_of_lt_mul (by rw [Nat.mul_comm, ← h5]; exact hr)
  · exact Nat.div_lt_of_lt_mul (by rw [Nat.mul_comm, ← h6]; exact hc)
  · rw [Nat.mul_comm]; exact (Nat.div_add_mod r br).symm
  · rw [Nat.mul_comm]; exact (Nat.div_add_mod c bc).symm
  · rintro ⟨⟨i, j⟩, a, b⟩ ⟨-, ⟨ha, hb⟩, e1, e2⟩
    simp only at ha hb e1 e2
    subst e1 e2
    rw [div_blk ha, mod_blk ha, div_blk hb, mod_blk hb]

/-- **C99.** An index which is out of range is undefined behaviour: it is not checked. -/
theorem C99_out_of_range (o : BlockObject K) (nv nh br bc : ℕ) (h : HasBlocks o nv nh br bc) (i j : ℤ) (hij : ¬ ((0 ≤ i ∧ i < nv) ∧ 0 ≤ j ∧ j < nh)) :
    o.get (o.at_ i j) = .error .ub := by
  obtain ⟨h1, h2, h3, h4, -, -, h5, h6⟩ := h
  unfold BlockObject.get
  rw [require_false]
  · rfl
  · rintro ⟨a1, a2, -, -, a3, a4⟩
    simp only [at_, h1, h2, h5, h6, Nat.cast_mul] at a1 a2 a3 a4
    have p3 : (0 : ℤ) < br := by exact_mod_cast h3
    have p4 : (0 : ℤ) < bc := by exact_mod_cast h4
    apply hij
    refine ⟨⟨?_, ?_⟩, ?_, ?_⟩
    · by_contra c; nlinarith
    · by_contra c; nlinarith
    · by_contra c; nlinarith
    · by_contra c; nlinarith

/-- **C99.** Assignment to a block in range changes this block and nothing else; the object has the same blocks afterwards. -/
theorem C99_assign (o : BlockObject K) (nv nh br bc : ℕ) (h : HasBlocks o nv nh br bc) (i j : ℕ) (hi : i < nv) (hj : j < nh) (B : Mat K)
    (hB : B.rows = br ∧ B.cols = bc) :
    ∃ o', o.put (o.at_ i j) B = (o', .ok ()) ∧ HasBlocks o' nv nh br bc ∧ Replaced o.m (i * br) (j * bc) br bc B o'.m := by
  have h' := h
  obtain ⟨h1, h2, h3, h4, h7, h8, h5, h6⟩ := h'
  have g1 : i * br + br ≤ nv * br := by
    have := Nat.mul_le_mul_right br hi
    rw [Nat.succ_mul] at this
    exact this
  have g2 : j * bc + bc ≤ nh * bc := by
    have := Nat.mul_le_mul_right bc hj
    rw [Nat.succ_mul] at this
    exact this
  have z : ∀ x y : ℕ, (x : ℤ) * (y : ℤ) = ((x * y : ℕ) : ℤ) := fun x y => (Nat.cast_mul x y).symm
  have ea : o.at_ i j = ⟨((i * br : ℕ) : ℤ), ((j * bc : ℕ) : ℤ), br, bc⟩ := by
    unfold at_
    rw [h1, h2, z, z]
  have e : ∃ o', o.put (o.at_ i j) B = (o', .ok ()) := by
    rw [ea]
    unfold put
    rw [if_pos]
    · simp only [Int.toNat_natCast]
      unfold Mat.setBlock
      rw [if_pos ⟨by rw [h5]; exact g1, by rw [h6]; exact g2, hB.1, hB.2⟩]
      exact ⟨_, rfl⟩
    · unfold Place.within
      simp only [h5, h6]
      exact ⟨by omega, by omega, by omega, by omega, by exact_mod_cast g1, by exact_mod_cast g2⟩
  obtain ⟨o', e⟩ := e
  obtain ⟨-, -, A, rfl, r⟩ := put_ok e
  rw [ea] at r
  simp only [Int.toNat_natCast] at r
  refine ⟨_, e, ⟨h1, h2, h3, h4, h7, h8, ?_, ?_⟩, r⟩
  · exact r.1.trans h5
  · exact r.2.1.trans h6

/-- The rows which are selected. -/
theorem selectAsMatrix_ok {o : BlockObject K} {nv nh br bc : ℕ} (h : HasBlocks o nv nh br bc) (hn : 0 < nv) (r : ℕ) (hr : r < br) :
    ∃ A, o.selectRowInBlocksAsMatrix r = .ok A ∧ A.rows = nv ∧ A.cols = o.m.cols ∧
      ∀ i < nv, ∀ j < o.m.cols, A.e i j = o.m.e (i * br + r) j := by
  obtain ⟨h1, h2, h3, h4, -, -, h5, h6⟩ := h
  have hge : br ≤ nv * br := Nat.le_mul_of_pos_left br hn
  have hrows : (nv * br - r + br - 1) / br = nv := by
    rw [Nat.div_eq_iff h3]
    omega
  have key : ∀ i j, r + i * br + j * (nv * br) = j * (nv * br) + (i * br + r) := by intro i j; ring
  have hlt : ∀ i < nv, i * br + r < nv * br := by
    intro i hi
    have := Nat.mul_le_mul_right br hi
    rw [Nat.succ_mul] at this
    omega
  unfold selectRowInBlocksAsMatrix
  rw [require_true ⟨by omega, by rw [h1]; omega⟩, ok_bind, h1, Int.toNat_natCast, Int.toNat_natCast]
  unfold selectRows
  rw [require_true ⟨by rw [h5]; omega, h3⟩, ok_bind, pure_eq_ok, ok_bind]
  unfold MapView.toMat
  simp only [h5]
  rw [hrows, require_true, ok_bind, pure_eq_ok]
  · refine ⟨_, rfl, rfl, rfl, ?_⟩
    intro i hi j hj
    simp only
    rw [key, mod_blk (hlt i hi), div_blk (hlt i hi)]
  · intro i hi j hj
    rw [key]
    calc j * (nv * br) + (i * br + r) < o.m.cols * (nv * br) := by rw [blk_lt (hlt i hi)]; exact hj
      _ = nv * br * o.m.cols := by ring

/-- **C99.** `selectRowInBlocks` selects the given row of each block, as a matrix and, when both sizes of a block are given by the template, as a
block matrix with the same numbers of blocks and of columns in a block. -/
theorem C99_select_partial (o : BlockObject K) (nv nh br bc : ℕ) (h : HasBlocks o nv nh br bc) (hn : 0 < nv) (r : ℕ) (hr : r < br) :
    (∃ A, o.selectRowInBlocksAsMatrix r = .ok A ∧ A.rows = nv ∧ A.cols = nh * bc ∧ ∀ i < nv, ∀ j < nh * bc, A.e i j = o.m.e (i * br + r) j) ∧
    (0 < o.tr → 0 < o.tc → ∃ o', o.selectRowInBlocks r = .ok o' ∧ HasBlocks o' nv nh 1 bc ∧
      ∀ i < nv, ∀ j < nh * bc, o'.m.e i j = o.m.e (i * br + r) j) := by
  obtain ⟨A, e, a1, a2, a3⟩ := selectAsMatrix_ok h hn r hr
  obtain ⟨h1, h2, h3, h4, -, -, h5, h6⟩ := h
  rw [h6] at a2 a3
  refine ⟨⟨A, e, a1, a2, a3⟩, ?_⟩
  intro tr tc
  have hbc : o.tc = bc := by
    rw [← h2]
    unfold blockCols
    rw [if_pos tc]
  unfold selectRowInBlocks
  rw [e, ok_bind, if_pos tr]
  obtain ⟨o', ho⟩ := (C99_construct 1 o.tc 0 0 A).mpr ⟨Or.inr ⟨by omega, rfl, by omega⟩, Or.inr ⟨tc, rfl, by
    rw [a2, hbc, Nat.cast_mul]; exact Int.mul_emod_left _ _⟩⟩
  obtain ⟨-, -, p, q1, q2, q3, -⟩ := construct_inv ho
  refine ⟨o', ho, ?_, by rw [q1]; exact a3⟩
  have b1 : o'.blockRows = 1 := by unfold blockRows; rw [q2]; rfl
  have b2 : o'.blockCols = bc := by unfold blockCols; rw [q3, if_pos tc]; exact hbc
  obtain ⟨x, y, g⟩ := C99_has_blocks o' p (by omega) (by rw [b2]; exact_mod_cast h4)
  rw [b1, b2, Int.toNat_natCast] at g
  have g7 := g.2.2.2.2.2.2.1
  have g8 := g.2.2.2.2.2.2.2
  rw [q1, a1] at g7
  rw [q1, a2] at g8
  have ex : x = nv := by simpa using g7.symm
  have ey : y = nh := (Nat.eq_of_mul_eq_mul_right h4 g8).symm
  rw [ex, ey] at g
  exact g

/-- **C99.** `getBlockKroneckerProduct` passes the sizes of the block on correctly, for all combinations of sizes given by the template and at run
time. -/
theorem C99_kronecker [Zero K] (o : BlockObject K) (h : ReachableObject o) (nv nh br bc : ℕ) (hb : HasBlocks o nv nh br bc) (identity_size : ℤ)
    (hs : 1 < identity_size) : ∃ P, o.getBlockKroneckerProduct identity_size = .ok P ∧ HasBlocks P nv nh br bc ∧ P.m = o.m := by
  have hi := reachableObject_inv h
  obtain ⟨h1, h2, h3, h4, -, -, h5, h6⟩ := hb
  have p3 : (0 : ℤ) < br := by exact_mod_cast h3
  have p4 : (0 : ℤ) < bc := by exact_mod_cast h4
  have d1 : (o.m.rows : ℤ) % br = 0 := by rw [h5, Nat.cast_mul]; exact Int.mul_emod_left _ _
  have d2 : (o.m.cols : ℤ) % bc = 0 := by rw [h6, Nat.cast_mul]; exact Int.mul_emod_left _ _
  have ir := inv_blockRows hi.1
  have ic := inv_blockCols hi.2
  rw [h1] at ir
  rw [h2] at ic
  have ex : ∃ P, construct o.tr o.tc o.m (if 0 < o.tr then 0 else o.br) (if 0 < o.tc then 0 else o.bc) = .ok P := by
    rw [C99_construct]
    constructor
    · rcases ir with a | ⟨-, ⟨a, b⟩ | ⟨a, b⟩⟩
      · omega
      · rw [if_neg (by omega), b]
        exact Or.inl ⟨a, Or.inr ⟨p3, d1⟩⟩
      · rw [if_pos a]
        exact Or.inr ⟨a, rfl, by rw [b]; exact d1⟩
    · rcases ic with a | ⟨-, ⟨a, b⟩ | ⟨a, b⟩⟩
      · omega
      · rw [if_neg (by omega), b]
        exact Or.inl ⟨a, Or.inr ⟨p4, d2⟩⟩
      · rw [if_pos a]
        exact Or.inr ⟨a, rfl, by rw [b]; exact d2⟩
  obtain ⟨P, e⟩ := ex
  unfold getBlockKroneckerProduct
  rw [e, ok_bind, assertThat_true (show identity_size > 1 from hs)]
  obtain ⟨-, -, p, q1, q2, q3, q4, q5, -⟩ := construct_inv e
  refine ⟨P, rfl, ?_, q1⟩
  have b1 : P.blockRows = br := by
    unfold blockRows
    rw [q2]
    rcases ir with a | ⟨-, ⟨a, b⟩ | ⟨a, b⟩⟩
    · omega
    · rw [if_neg (by omega), q4 a, if_neg (by omega), b]
    · rw [if_pos a, b]
  have b2 : P.blockCols = bc := by
    unfold blockCols
    rw [q3]
    rcases ic with a | ⟨-, ⟨a, b⟩ | ⟨a, b⟩⟩
    · omega
    · rw [if_neg (by omega), q5 a, if_neg (by omega), b]
    · rw [if_pos a, b]
  obtain ⟨x, y, g⟩ := C99_has_blocks P p (by omega) (by omega)
  rw [b1, b2, Int.toNat_natCast, Int.toNat_natCast] at g
  have g7 := g.2.2.2.2.2.2.1
  have g8 := g.2.2.2.2.2.2.2
  rw [q1, h5] at g7
  rw [q1, h6] at g8
  rw [← Nat.eq_of_mul_eq_mul_right h3 g7, ← Nat.eq_of_mul_eq_mul_right h4 g8] at g
  exact g

/-! ## C99: violations -/

/-- A matrix 4x4. -/
def four : Mat ℚ := ⟨4, 4, fun i j => i + 4 * j⟩

/-- **C99** is violated after an exception: `set` with a matrix which does not consist of whole blocks throws, but the matrix has been replaced; the object reports
two rows of blocks and four rows, while the matrix has three, and access to the first column of blocks is undefined behaviour. -/
theorem C99_set_refuted : ∃ o : BlockObject ℚ, construct 2 2 four 0 0 = .ok o ∧ (o.set ⟨3, 3, fun _ _ => 0⟩).2 = .error .thrown ∧
    ∃ o', runCaught [.set ⟨3, 3, fun _ _ => 0⟩] o = .ok o' ∧ o'.getNumberOfRows = .ok 4 ∧ o'.m.rows = 3 ∧ ¬ Partitioned o' ∧
      ∃ p, o'.column 0 0 = .ok p ∧ o'.get p = .error .ub := by
  refine ⟨⟨2, 2, four, some 2, some 2, 2, 2⟩, rfl, rfl, ⟨2, 2, ⟨3, 3, fun _ _ => 0⟩, some 2, some 2, 2, 2⟩, rfl, rfl, rfl, ?_, _, rfl, rfl⟩
  rintro ⟨⟨-, n, -, e, -⟩ | ⟨e, -⟩, -⟩
  · have e' : (Except.ok 4 : Res ℤ) = Except.ok ((3 : ℕ) : ℤ) := e
    injection e' with e'
    omega
  · have e' : (2 : ℤ) = -1 := e
    omega

/-- **C99** is violated after an exception in `setBlockSize`: the number of rows in a block has been changed when the size which is given by the template is
rejected; four rows are reported, the matrix has two. -/
theorem C99_setBlockSize_refuted : ∃ o : BlockObject ℚ, construct (-1) 1 ⟨2, 1, fun _ _ => 5⟩ 1 0 = .ok o ∧
    (o.setBlockSize 2 1).2 = .error .thrown ∧ ∃ o', runCaught [.setBlockSize 2 1] o = .ok o' ∧ o'.getNumberOfRows = .ok 4 ∧ o'.m.rows = 2 ∧
      ¬ Partitioned o' := by
  refine ⟨⟨-1, 1, ⟨2, 1, fun _ _ => 5⟩, some 2, some 1, 1, 1⟩, rfl, rfl, ⟨-1, 1, ⟨2, 1, fun _ _ => 5⟩, some 2, some 1, 2, 1⟩, rfl, rfl, rfl, ?_⟩
  rintro ⟨⟨-, n, -, e, -⟩ | ⟨-, e, -⟩, -⟩
  · have e' : (Except.ok 4 : Res ℤ) = Except.ok ((2 : ℕ) : ℤ) := e
    injection e' with e'
    omega
  · have e' : (2 : ℤ) = 0 := e
    omega

/-- A matrix 2x4. -/
def wideBlock : Mat ℚ := ⟨2, 4, fun i j => i + 2 * j⟩

/-- **C99** is violated by `selectRowInBlocks` when sizes of blocks are given at run time: the number of rows in a block is used as the number of
columns. A matrix of one block 2x4 has two blocks of 2 columns after the selection; when the number of columns is given by the template, the selection throws. -/
theorem C99_select_refuted : (∃ o o' : BlockObject ℚ, construct (-1) (-1) wideBlock 2 4 = .ok o ∧ HasBlocks o 1 1 2 4 ∧
      o.selectRowInBlocks 0 = .ok o' ∧ o'.getNumberOfBlocksHorizontal = .ok 2 ∧ o'.blockCols = 2) ∧
    ∃ o : BlockObject ℚ, construct (-1) 4 wideBlock 2 0 = .ok o ∧ HasBlocks o 1 1 2 4 ∧
      o.selectRowInBlocks 0 = .error .thrown := by
  constructor
  · exact ⟨⟨-1, -1, wideBlock, some 1, some 1, 2, 4⟩, _, rfl, ⟨rfl, rfl, by omega, by omega, rfl, rfl, rfl, rfl⟩, rfl, rfl, rfl⟩
  · exact ⟨⟨-1, 4, wideBlock, some 1, some 1, 2, 4⟩, rfl, ⟨rfl, rfl, by omega, by omega, rfl, rfl, rfl, rfl⟩, rfl⟩

/-! ## C99: examples -/

/-- A sequence of completed operations. -/
example : ∃ o o' : BlockObject ℚ, construct (-1) 2 (Mat.ofRows 2 []) 0 0 = .ok o ∧
    run [.setBlockSize 3 0, .setZero 2 2, .putBlock 1 0 ⟨3, 2, fun _ _ => 7⟩, .putRow 0 0 2 ⟨3, 4, fun _ _ => 8⟩] o = .ok o' ∧
      (o'.getNumberOfRows = .ok 6 ∧ o'.m.e 5 1 = 7 ∧ o'.m.e 5 2 = 0 ∧ o'.m.e 2 3 = 8) ∧ Partitioned o' := by
  have h : ∃ o o' : BlockObject ℚ, construct (-1) 2 (Mat.ofRows 2 []) 0 0 = .ok o ∧
      run [.setBlockSize 3 0, .setZero 2 2, .putBlock 1 0 ⟨3, 2, fun _ _ => 7⟩, .putRow 0 0 2 ⟨3, 4, fun _ _ => 8⟩] o = .ok o' ∧
        (o'.getNumberOfRows = .ok 6 ∧ o'.m.e 5 1 = 7 ∧ o'.m.e 5 2 = 0 ∧ o'.m.e 2 3 = 8) :=
    ⟨_, _, rfl, rfl, rfl, by rfl, by rfl, by rfl⟩
  obtain ⟨o, o', h1, h2, h3⟩ := h
  exact ⟨o, o', h1, h2, h3, C99_history (-1) 2 0 0 (Mat.ofRows 2 []) o o' _ h1 h2⟩

/-- An object which recovers after two exceptions. -/
example : ∃ o o1 o2 : BlockObject ℚ, construct 2 2 four 0 0 = .ok o ∧
    runCaught [.set ⟨3, 3, fun _ _ => 0⟩, .setBlockSize 1 1] o = .ok o1 ∧ o1.apply (.set ⟨6, 2, fun _ _ => 1⟩) = (o2, .ok ()) ∧
      o2.getNumberOfBlocksVertical = .ok 3 ∧ Partitioned o2 := by
  have h : ∃ o o1 o2 : BlockObject ℚ, construct 2 2 four 0 0 = .ok o ∧
      runCaught [.set ⟨3, 3, fun _ _ => 0⟩, .setBlockSize 1 1] o = .ok o1 ∧ o1.apply (.set ⟨6, 2, fun _ _ => 1⟩) = (o2, .ok ()) ∧
        o2.getNumberOfBlocksVertical = .ok 3 := ⟨_, _, _, rfl, rfl, rfl, rfl⟩
  obtain ⟨o, o1, o2, h1, h2, h3, h4⟩ := h
  exact ⟨o, o1, o2, h1, h2, h3, h4, C99_recovers 2 2 0 0 four o o1 o2 o2 _ _ [] h1 h2 rfl h3 rfl⟩

/-- The hypotheses of the theorems about access, selection and the Kronecker product are met. -/
example : ∃ o : BlockObject ℚ, construct 2 2 four 0 0 = .ok o ∧ ReachableObject o ∧ HasBlocks o 2 2 2 2 ∧ (0 < o.tr ∧ 0 < o.tc) ∧
    ∃ B, o.get (o.at_ 1 0) = .ok B ∧ B.e 1 1 = 7 :=
  ⟨⟨2, 2, four, some 2, some 2, 2, 2⟩, rfl, ⟨2, 2, 0, 0, four, _, [], rfl, rfl⟩, ⟨rfl, rfl, by omega, by omega, rfl, rfl, rfl, rfl⟩,
    ⟨by decide, by decide⟩, _, rfl, by norm_num [four, at_, blockRows, blockCols, show Int.toNat 2 = 2 from rfl]⟩

/-! ## C37: all sparsity types -/

/-- **C37.** `multiplyRight` of matrices of each sparsity type is the dense product, provided that the matrix is as sparse as its type says. -/
theorem C37_sparsity [Semiring K] (t : Sparsity) (static : Bool) (M : BlockMat K) (A : Mat K) (hA : A.rows = M.m.cols) (junk : ℕ → ℕ → K)
    (hd : t = .diagonal → ∃ n br bc, BlockDiagonal M n br bc) (hl : t = .leftLowerTriangular → LowerTriangular M.m M.br M.bc) :
    ∃ P, M.multiplyRight t static junk A = .ok P ∧ ProductOf M.m A P := by
  have dense : ∃ P, M.m.mul A = .ok P ∧ ProductOf M.m A P := by
    unfold Mat.mul
    rw [if_pos hA.symm]
    exact ⟨_, rfl, hA.symm, rfl, rfl, fun _ _ _ _ => rfl⟩
  cases t with
  | none => exact dense
  | diagonal =>
    obtain ⟨n, br, bc, h⟩ := hd rfl
    exact C37_right_partial h A hA junk
  | leftLowerTriangular =>
    unfold BlockMat.multiplyRight
    simp only
    split_ifs with h
    · rw [assertThat_true hA]
      show ∃ P, M.m.lower.mul A = .ok P ∧ _
      unfold Mat.mul
      rw [if_pos (show M.m.lower.cols = A.rows from hA.symm)]
      refine ⟨_, rfl, hA.symm, rfl, rfl, ?_⟩
      intro i hi j hj
      show (∑ k ∈ Finset.range M.m.cols, M.m.lower.e i k * A.e k j) = ∑ k ∈ Finset.range M.m.cols, M.m.e i k * A.e k j
      refine Finset.sum_congr rfl fun k hk => ?_
      have hk' : k < M.m.cols := Finset.mem_range.mp hk
      show (if k ≤ i then M.m.e i k else 0) * A.e k j = _
      by_cases c : k ≤ i
      · rw [if_pos c]
      · rw [if_neg c]
        have := hl rfl i k 0 0 (by omega) (by rw [h.2.1]; omega) (by rw [h.2.2]; omega) (by rw [h.2.1]; omega) (by rw [h.2.2]; omega)
        rw [h.2.1, h.2.2] at this
        simp only [mul_one, add_zero] at this
        rw [this]
    · exact dense

/-- **C37.** The product of two block matrices one of which is block diagonal is the dense product; block diagonal matrices with the same numbers of rows and
columns of blocks. -/
theorem C37_operator [Semiring K] (L R : BlockMat K) (hs : R.m.rows = L.m.cols) (junk : ℕ → ℕ → K) (right_is_diagonal : Bool) (n br bc : ℕ)
    (hd : if right_is_diagonal then BlockDiagonal R n br bc else BlockDiagonal L n br bc) :
    ∃ P, L.times right_is_diagonal R junk = .ok P ∧ ProductOf L.m R.m P := by
  unfold BlockMat.times
  cases right_is_diagonal with
  | true => exact C37_left_partial hd L.m hs.symm junk
  | false => exact C37_right_partial hd R.m hs junk

/-- A full matrix which is declared left lower triangular, with blocks 1x1: the entry above the diagonal is ignored, so the sparsity is needed. -/
example : ∃ P, (⟨1, 1, Mat.ofRows 2 [[1, 5], [2, (3 : ℚ)]]⟩ : BlockMat ℚ).multiplyRight .leftLowerTriangular true (fun _ _ => 7)
    (Mat.ofRows 1 [[1], [1]]) = .ok P ∧ P.e 0 0 = 1 ∧ P.e 1 0 = 5 :=
  ⟨_, rfl, by norm_num [Mat.ofRows, Mat.lower, Finset.sum_range_succ], by norm_num [Mat.ofRows, Mat.lower, Finset.sum_range_succ]⟩

/-- The hypotheses are met. -/
example : ∃ P, (⟨1, 1, smallExample⟩ : BlockMat ℚ).multiplyRight .leftLowerTriangular true (fun _ _ => 7) (Mat.ofRows 1 [[1], [1]]) = .ok P ∧
    ProductOf smallExample (Mat.ofRows 1 [[1], [1]]) P :=
  C37_sparsity .leftLowerTriangular true ⟨1, 1, smallExample⟩ (Mat.ofRows 1 [[1], [1]]) rfl _ (by simp) (by
    rintro - i j p q hij hi hj hp hq
    have hj' : j < 2 := by simp only [smallExample, Mat.ofRows] at hj; omega
    obtain rfl : p = 0 := by simp only at hp; omega
    obtain rfl : q = 0 := by simp only at hq; omega
    obtain ⟨rfl, rfl⟩ : i = 0 ∧ j = 1 := by omega
    rfl)

example : ∃ P, diagExample.times false ⟨1, 1, Mat.ofRows 1 [[1], [1], [2]]⟩ (fun _ _ => 7) = .ok P ∧
    ProductOf diagExample.m (Mat.ofRows 1 [[1], [1], [2]]) P :=
  C37_operator diagExample ⟨1, 1, Mat.ofRows 1 [[1], [1], [2]]⟩ rfl _ false 3 2 1 diagExample_diagonal

end Humoto
