import Verif.Model.Bytes
/-
Lemmas on big-endian integers.
-/
namespace Verif

@[simp] theorem beBytes_length (k v : Nat) : (beBytes k v).length = k := by
  induction k with
  | zero => rfl
  | succ k ih => simp [beBytes, ih]

theorem foldl_beNat (bs : List Byte) (a : Nat) :
    bs.foldl (fun a b => a * 256 + b.toNat) a = a * 256 ^ bs.length + beNat bs := by
  induction bs generalizing a with
  | nil => simp [beNat]
  | cons b bs ih =>
    simp only [beNat, List.foldl_cons, List.length_cons]
    rw [ih, ih (0 * 256 + b.toNat)]
    rw [Nat.pow_succ]
    generalize 256 ^ bs.length = P
    generalize b.toNat = B
    generalize beNat bs = N
    rw [Nat.add_mul, Nat.zero_mul, Nat.zero_add]
    have : a * 256 * P = a * (P * 256) := by rw [Nat.mul_assoc, Nat.mul_comm 256 P]
    omega

theorem beNat_cons (b : Byte) (bs : List Byte) :
    beNat (b :: bs) = b.toNat * 256 ^ bs.length + beNat bs := by
  have := foldl_beNat bs (0 * 256 + b.toNat)
  simp only [Nat.zero_mul, Nat.zero_add] at this
  simpa [beNat] using this

theorem beNat_lt (bs : List Byte) : beNat bs < 256 ^ bs.length := by
  induction bs with
  | nil => simp [beNat]
  | cons b bs ih =>
    rw [beNat_cons, List.length_cons, Nat.pow_succ]
    have hb : b.toNat < 256 := b.toNat_lt
    have : b.toNat * 256 ^ bs.length ≤ 255 * 256 ^ bs.length :=
      Nat.mul_le_mul_right _ (by omega)
    omega

theorem beNat_beBytes (k v : Nat) : beNat (beBytes k v) = v % 256 ^ k := by
  induction k with
  | zero => simp [beBytes, beNat, Nat.mod_one]
  | succ k ih =>
    rw [beBytes, beNat_cons, ih, beBytes_length]
    have h1 : (UInt8.ofNat (v / 256 ^ k)).toNat = v / 256 ^ k % 256 := by
      simp [UInt8.toNat_ofNat']
    rw [h1, Nat.pow_succ, Nat.mod_mul]
    rw [Nat.mul_comm]
    omega

theorem beNat_beBytes_of_lt {k v : Nat} (h : v < 256 ^ k) : beNat (beBytes k v) = v := by
  rw [beNat_beBytes, Nat.mod_eq_of_lt h]

theorem beBytes_beNat (bs : List Byte) : beBytes bs.length (beNat bs) = bs := by
  induction bs with
  | nil => rfl
  | cons b bs ih =>
    have hlt := beNat_lt bs
    rw [List.length_cons, beBytes, beNat_cons]
    congr 1
    · have : (b.toNat * 256 ^ bs.length + beNat bs) / 256 ^ bs.length = b.toNat := by
        rw [Nat.mul_comm, Nat.mul_add_div (Nat.pow_pos (by decide)), Nat.div_eq_of_lt hlt]
        simp
      rw [this]
      simp
    · have key : ∀ (k m v : Nat), beBytes k (m * 256 ^ k + v) = beBytes k v := by
        intro k
        induction k with
        | zero => intros; rfl
        | succ k ihk =>
          intro m v
          simp only [beBytes]
          congr 1
          · apply UInt8.toNat_inj.mp
            simp only [UInt8.toNat_ofNat']
            rw [Nat.pow_succ]
            have : m * (256 ^ k * 256) + v = 256 ^ k * (m * 256) + v := by
              rw [show m * (256 ^ k * 256) = 256 ^ k * (m * 256) by
                rw [Nat.mul_comm m, Nat.mul_assoc, Nat.mul_comm 256 m]]
            rw [this, Nat.mul_add_div (Nat.pow_pos (by decide))]
            omega
          · rw [Nat.pow_succ, ← Nat.mul_assoc, Nat.mul_right_comm]
            exact ihk (m * 256) v
      rw [key, ih]

theorem wrapI_lt (k : Nat) (x : Int) : wrapI k x < 256 ^ k := by
  unfold wrapI
  have hpos : (0 : Int) < ((256 ^ k : Nat) : Int) := by
    have := Nat.pow_pos (n := k) (show 0 < 256 by decide)
    omega
  have h1 := Int.emod_lt_of_pos x hpos
  have h2 := Int.emod_nonneg x (Int.ne_of_gt hpos)
  omega

theorem pow256_even {k : Nat} (hk : 0 < k) : 2 * (256 ^ k / 2) = 256 ^ k := by
  cases k with
  | zero => omega
  | succ k => rw [Nat.pow_succ]; omega

theorem toSigned_wrapI {k : Nat} (hk : 0 < k) {x : Int} (h : InI k x) :
    toSigned k (wrapI k x) = x := by
  unfold InI at h
  unfold toSigned wrapI
  have heven := pow256_even hk
  have hpos : 0 < 256 ^ k := Nat.pow_pos (by decide)
  generalize hM : 256 ^ k = M at *
  by_cases hx : 0 ≤ x
  · have : x % (M : Int) = x := Int.emod_eq_of_lt hx (by omega)
    rw [this]
    split <;> omega
  · have : x % (M : Int) = x + M := by
      have h1 : (x + M) % (M : Int) = x % M := by simp
      rw [← h1]
      exact Int.emod_eq_of_lt (by omega) (by omega)
    rw [this]
    split <;> omega

theorem wrapI_toSigned {k n : Nat} (h : n < 256 ^ k) : wrapI k (toSigned k n) = n := by
  unfold toSigned wrapI
  generalize 256 ^ k = M at *
  split
  · have : (n : Int) % (M : Int) = n := Int.emod_eq_of_lt (by omega) (by omega)
    rw [this]; omega
  · have : ((n : Int) - M) % (M : Int) = n := by
      have h1 : ((n : Int) - M) % (M : Int) = (n : Int) % M := by simp
      rw [h1]
      exact Int.emod_eq_of_lt (by omega) (by omega)
    rw [this]; omega

theorem toSigned_inI {k n : Nat} (hk : 0 < k) (h : n < 256 ^ k) : InI k (toSigned k n) := by
  have heven := pow256_even hk
  unfold toSigned InI
  generalize 256 ^ k = M at *
  split <;> omega

theorem toSigned_of_lt {k n : Nat} (h : n < 256 ^ k / 2) : toSigned k n = n := by
  simp [toSigned, h]

theorem wrapI_ofNat {k n : Nat} (h : n < 256 ^ k) : wrapI k (n : Int) = n := by
  unfold wrapI
  generalize 256 ^ k = M at *
  have : (n : Int) % (M : Int) = n := Int.emod_eq_of_lt (by omega) (by omega)
  rw [this]; omega

/-- Two integers with the same low `k` bytes are stored alike. -/
theorem beBytes_mod (k v : Nat) : beBytes k (v % 256 ^ k) = beBytes k v := by
  have h := beBytes_beNat (beBytes k v)
  rw [beBytes_length, beNat_beBytes] at h
  exact h

theorem beBytes_inj {k a b : Nat} (h : beBytes k a = beBytes k b) :
    a % 256 ^ k = b % 256 ^ k := by
  rw [← beNat_beBytes, ← beNat_beBytes, h]

/-! ### Masks -/

theorem or_byteCountMask {n : Nat} (h : n < 2 ^ 30) : n ||| kByteCountMask = 2 ^ 30 + n := by
  have := Nat.two_pow_add_eq_or_of_lt h 1
  simp only [Nat.mul_one] at this
  rw [this, Nat.or_comm]; rfl

theorem and_byteCountMask_add {n : Nat} (h : n < 2 ^ 30) :
    (2 ^ 30 + n) &&& kByteCountMask = 2 ^ 30 := by
  rw [← or_byteCountMask h]
  apply Nat.eq_of_testBit_eq
  intro i
  simp only [kByteCountMask, Nat.testBit_and, Nat.testBit_or]
  by_cases hb : Nat.testBit 0x40000000 i
  · simp [hb]
  · simp [hb]

theorem and_clear_byteCountMask {n : Nat} (h : n < 2 ^ 30) :
    (2 ^ 30 + n) &&& 0xBFFFFFFF = n := by
  rw [← or_byteCountMask h]
  apply Nat.eq_of_testBit_eq
  intro i
  simp only [kByteCountMask, Nat.testBit_and, Nat.testBit_or]
  by_cases hi : i < 30
  · have h1 : Nat.testBit 0x40000000 i = false := by
      have := Nat.testBit_two_pow_of_ne (n := 30) (m := i) (by omega)
      simpa using this
    have h2 : Nat.testBit 0xBFFFFFFF i = true := by
      have : 0xBFFFFFFF = 2 ^ 30 * 2 + (2 ^ 30 - 1) := by decide
      rw [this, Nat.testBit_two_pow_mul_add _ (by decide)]
      rw [if_pos hi, Nat.testBit_two_pow_sub_one]
      simp [hi]
    simp [h1, h2]
  · have h3 : n.testBit i = false := Nat.testBit_lt_two_pow
        (Nat.lt_of_lt_of_le h (Nat.pow_le_pow_right (by decide) (by omega)))
    by_cases h30 : i = 30
    · subst h30; simp [h3]; decide
    · have h1 : Nat.testBit 0x40000000 i = false := by
        have := Nat.testBit_two_pow_of_ne (n := 30) (m := i) (by omega)
        simpa using this
      simp [h1, h3]

theorem and_two_pow_ne_zero (n i : Nat) : n &&& 2 ^ i ≠ 0 ↔ n.testBit i = true := by
  constructor
  · intro h
    cases hb : n.testBit i with
    | true => rfl
    | false =>
      exfalso; apply h
      apply Nat.eq_of_testBit_eq
      intro j
      rw [Nat.testBit_and, Nat.testBit_two_pow, Nat.zero_testBit]
      by_cases hj : i = j
      · subst hj; simp [hb]
      · simp [hj]
  · intro h h0
    have : (n &&& 2 ^ i).testBit i = true := by
      rw [Nat.testBit_and, Nat.testBit_two_pow]; simp [h]
    rw [h0] at this
    simp at this

end Verif
