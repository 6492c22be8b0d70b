import Verif.Proofs.Whole
import Verif.Proofs.Double
import Mathlib.Tactic.Ring
import Mathlib.Tactic.Linarith

/-! # Rings of numbers: whole numbers, decimals, whole doubles -/

namespace Oasis.Whole

theorem isInt_pow {b : ℚ} (h : IsInt b) (n : ℕ) : IsInt (b ^ n) := by
  obtain ⟨z, rfl⟩ := h
  exact ⟨z ^ n, by push_cast; rfl⟩

theorem rat_pow (b : ℚ) (n : ℕ) : Num.pow b (n : ℚ) = b ^ n := by
  show (if ((n : ℚ)).den = 1 then ratZpow b ((n : ℚ)).num else _) = _
  simp [ratZpow]

theorem rat_half {p : ℚ} (h : IsNat p) : Num.beq p (Num.half : ℚ) = false := by
  obtain ⟨n, rfl⟩ := h
  show decide ((n : ℚ) = 1 / 2) = false
  rw [decide_eq_false_iff_not]
  intro h
  have h2 : ((2 * n : ℕ) : ℚ) = 1 := by push_cast; linarith
  have h3 : 2 * n = 1 := by exact_mod_cast h2
  omega

theorem isNat_add {p q : ℚ} (hp : IsNat p) (hq : IsNat q) : IsNat (p + q) := by
  obtain ⟨m, rfl⟩ := hp
  obtain ⟨n, rfl⟩ := hq
  exact ⟨m + n, by push_cast; rfl⟩

theorem isNat_mul {p q : ℚ} (hp : IsNat p) (hq : IsNat q) : IsNat (p * q) := by
  obtain ⟨m, rfl⟩ := hp
  obtain ⟨n, rfl⟩ := hq
  exact ⟨m * n, by push_cast; rfl⟩

theorem isInt_add {p q : ℚ} (hp : IsInt p) (hq : IsInt q) : IsInt (p + q) := by
  obtain ⟨m, rfl⟩ := hp
  obtain ⟨n, rfl⟩ := hq
  exact ⟨m + n, by push_cast; rfl⟩

theorem isInt_sub {p q : ℚ} (hp : IsInt p) (hq : IsInt q) : IsInt (p - q) := by
  obtain ⟨m, rfl⟩ := hp
  obtain ⟨n, rfl⟩ := hq
  exact ⟨m - n, by push_cast; rfl⟩

theorem isInt_mul {p q : ℚ} (hp : IsInt p) (hq : IsInt q) : IsInt (p * q) := by
  obtain ⟨m, rfl⟩ := hp
  obtain ⟨n, rfl⟩ := hq
  exact ⟨m * n, by push_cast; rfl⟩

theorem isInt_ten (k : ℕ) : IsInt ((10 : ℚ) ^ k) := ⟨10 ^ k, by push_cast; rfl⟩

/-- the integers, with natural exponents -/
theorem closed_int : Closed IsInt IsNat where
  zero := ⟨0, rfl⟩
  one := ⟨1, rfl⟩
  two := ⟨2, rfl⟩
  negOne := ⟨-1, rfl⟩
  add := isInt_add
  sub := isInt_sub
  mul := isInt_mul
  pow := by
    rintro b p hb ⟨n, rfl⟩
    rw [rat_pow]
    exact isInt_pow hb n
  expZero := ⟨0, rfl⟩
  expOne := ⟨1, rfl⟩
  expTwo := ⟨2, rfl⟩
  expAdd := isNat_add
  expMul := isNat_mul
  half := rat_half

/-- a common number of decimal places -/
theorem decimal_both {p q : ℚ} (hp : IsDecimal p) (hq : IsDecimal q) :
    ∃ k, IsInt (p * 10 ^ k) ∧ IsInt (q * 10 ^ k) := by
  obtain ⟨k, hk⟩ := hp
  obtain ⟨l, hl⟩ := hq
  refine ⟨k + l, ?_, ?_⟩
  · rw [pow_add, ← mul_assoc]; exact isInt_mul hk (isInt_ten l)
  · rw [pow_add, mul_comm ((10 : ℚ) ^ k), ← mul_assoc]; exact isInt_mul hl (isInt_ten k)

theorem decimal_mul {p q : ℚ} (hp : IsDecimal p) (hq : IsDecimal q) : IsDecimal (p * q) := by
  obtain ⟨k, hk⟩ := hp
  obtain ⟨l, hl⟩ := hq
  refine ⟨k + l, ?_⟩
  have := isInt_mul hk hl
  rwa [show p * q * 10 ^ (k + l) = p * 10 ^ k * (q * 10 ^ l) by ring]

theorem decimal_int {q : ℚ} (h : IsInt q) : IsDecimal q := ⟨0, by simpa using h⟩

/-- the finite decimals, with natural exponents -/
theorem closed_decimal : Closed IsDecimal IsNat where
  zero := decimal_int closed_int.zero
  one := decimal_int closed_int.one
  two := decimal_int closed_int.two
  negOne := decimal_int closed_int.negOne
  add := fun {a b} ha hb => by
    obtain ⟨k, h1, h2⟩ := decimal_both ha hb
    exact ⟨k, by rw [show Num.add a b = a + b from rfl, add_mul]; exact isInt_add h1 h2⟩
  sub := fun {a b} ha hb => by
    obtain ⟨k, h1, h2⟩ := decimal_both ha hb
    exact ⟨k, by rw [show Num.sub a b = a - b from rfl, sub_mul]; exact isInt_sub h1 h2⟩
  mul := decimal_mul
  pow := by
    rintro b p hb ⟨n, rfl⟩
    rw [rat_pow]
    induction n with
    | zero => simpa using decimal_int closed_int.one
    | succ n ih => rw [pow_succ]; exact decimal_mul ih hb
  expZero := closed_int.expZero
  expOne := closed_int.expOne
  expTwo := closed_int.expTwo
  expAdd := isNat_add
  expMul := isNat_mul
  half := rat_half

theorem roundBin_nat {p : ℕ} {emin : ℤ} {q : ℚ} (h : IsNat q) : IsNat (roundBin p emin q) := by
  obtain ⟨n, rfl⟩ := h
  unfold roundBin
  simp only
  generalize max (binExp (n : ℚ) - (p - 1)) emin = u
  unfold twoPow
  split
  · exact ⟨roundEven ((n : ℚ) / ((2 ^ u.toNat : ℕ) : ℚ)) * 2 ^ u.toNat, by push_cast; rfl⟩
  · have h : (n : ℚ) / (1 / ((2 ^ (-u).toNat : ℕ) : ℚ)) = ((n * 2 ^ (-u).toNat : ℕ) : ℚ) := by
      push_cast
      rw [div_div_eq_mul_div, div_one]
    rw [h, Cli.roundEven_nat]
    refine ⟨n, ?_⟩
    push_cast
    have : ((2 : ℚ) ^ (-u).toNat) ≠ 0 := pow_ne_zero _ two_ne_zero
    field_simp

theorem rnd_whole {s : Bool} {q : ℚ} (h : IsNat q) : WholeDbl (Dbl.rnd s q) := by
  unfold Dbl.rnd
  simp only
  split
  · trivial
  · exact roundBin_nat h

theorem rnd_nat {q : ℚ} (h : IsNat q) : NatDbl (Dbl.rnd false q) := by
  unfold Dbl.rnd
  simp only
  split
  · exact rfl
  · exact ⟨rfl, roundBin_nat h⟩

theorem isNat_sub {p q : ℚ} (hp : IsNat p) (hq : IsNat q) (h : q ≤ p) : IsNat (p - q) := by
  obtain ⟨m, rfl⟩ := hp
  obtain ⟨n, rfl⟩ := hq
  have : n ≤ m := by exact_mod_cast h
  exact ⟨m - n, by rw [Nat.cast_sub this]⟩

theorem whole_add {x y : Dbl} (hx : WholeDbl x) (hy : WholeDbl y) : WholeDbl (Dbl.add x y) := by
  cases x <;> cases y <;> simp only [Dbl.add] <;> try trivial
  · split <;> trivial
  · split
    · exact rnd_whole (isNat_add hx hy)
    · split
      · exact ⟨0, by simp⟩
      · split
        · exact rnd_whole (isNat_sub hx hy (by linarith))
        · exact rnd_whole (isNat_sub hy hx (by linarith))

theorem whole_mul {x y : Dbl} (hx : WholeDbl x) (hy : WholeDbl y) : WholeDbl (Dbl.mul x y) := by
  cases x <;> cases y <;> simp only [Dbl.mul] <;> try trivial
  · split <;> trivial
  · split <;> trivial
  · exact rnd_whole (isNat_mul hx hy)

theorem whole_neg {x : Dbl} (hx : WholeDbl x) : WholeDbl (Dbl.neg x) := by
  cases x <;> exact hx

theorem nat_add {x y : Dbl} (hx : NatDbl x) (hy : NatDbl y) : NatDbl (Dbl.add x y) := by
  cases x <;> cases y <;> simp only [Dbl.add] <;> try trivial
  · rename_i s t
    cases hx; cases hy
    exact rfl
  · rename_i s a t b
    obtain ⟨rfl, ha⟩ := hx
    obtain ⟨rfl, hb⟩ := hy
    simpa using rnd_nat (isNat_add ha hb)

theorem nat_mul {x y : Dbl} (hx : NatDbl x) (hy : NatDbl y) : NatDbl (Dbl.mul x y) := by
  cases x <;> cases y <;> simp only [Dbl.mul] <;> try trivial
  · cases hx; cases hy; exact rfl
  · rename_i s t b
    cases hx
    obtain ⟨rfl, hb⟩ := hy
    split <;> trivial
  · rename_i s a t
    cases hy
    obtain ⟨rfl, ha⟩ := hx
    split <;> trivial
  · rename_i s a t b
    obtain ⟨rfl, ha⟩ := hx
    obtain ⟨rfl, hb⟩ := hy
    simpa using rnd_nat (isNat_mul ha hb)

theorem whole_ofInt (z : ℤ) : WholeDbl (Dbl.ofRat z) := by
  unfold Dbl.ofRat
  split
  · rename_i h
    refine rnd_whole ⟨(-z).toNat, ?_⟩
    have : (0 : ℤ) ≤ -z := by
      have : (z : ℚ) < 0 := h
      have : z < 0 := by exact_mod_cast this
      omega
    have h2 : (((-z).toNat : ℕ) : ℤ) = -z := Int.toNat_of_nonneg this
    rw [← Int.cast_natCast, h2]; push_cast; rfl
  · rename_i h
    refine rnd_whole ⟨z.toNat, ?_⟩
    have : (0 : ℤ) ≤ z := by
      have : ¬ (z : ℚ) < 0 := h
      exact_mod_cast not_lt.1 this
    have h2 : ((z.toNat : ℕ) : ℤ) = z := Int.toNat_of_nonneg this
    rw [← Int.cast_natCast, h2]

theorem nat_ofNat (n : ℕ) : NatDbl (Dbl.ofRat ((n : ℤ) : ℚ)) := by
  unfold Dbl.ofRat
  rw [if_neg (by simp)]
  exact rnd_nat ⟨n, by simp⟩

theorem dbl_half [Libm] {p : Dbl} (h : NatDbl p) : Num.beq p (Num.half : Dbl) = false := by
  cases p with
  | num s q =>
    obtain ⟨rfl, n, rfl⟩ := h
    show decide ((n : ℚ) = 1 / 2) = false
    exact rat_half ⟨n, rfl⟩
  | _ => rfl

/-- the whole doubles, if the library's `pow` keeps them whole -/
theorem closed_double [Libm] (hpow : ∀ b p, WholeDbl b → NatDbl p → WholeDbl (Libm.pow b p)) :
    Closed WholeDbl NatDbl where
  zero := whole_ofInt 0
  one := whole_ofInt 1
  two := whole_ofInt 2
  negOne := by
    have := whole_ofInt (-1)
    exact this
  add := whole_add
  sub := fun ha hb => whole_add ha (whole_neg hb)
  mul := whole_mul
  pow := fun hb hp => hpow _ _ hb hp
  expZero := nat_ofNat 0
  expOne := nat_ofNat 1
  expTwo := nat_ofNat 2
  expAdd := nat_add
  expMul := nat_mul
  half := dbl_half

end Oasis.Whole
