import Mathlib.Data.Nat.Basic
import Mathlib.Tactic.IntervalCases
import Mathlib.Tactic.NormNum
import Mathlib.Algebra.Group.Basic
/-!
# Decimal text

The text the C library prints for `%d`/`%u`, as lists of characters, and reading it back.
-/
namespace Vvflow

/-- The character of a decimal digit. -/
def digitChar (d : Nat) : Char := Char.ofNat (48 + d)

/-- Is the character a decimal digit (`isdigit`)? -/
def isDig (c : Char) : Bool := 48 ≤ c.toNat && c.toNat ≤ 57

/-- White space as skipped by `scanf` (`isspace` in the C locale). -/
def isSpc (c : Char) : Bool := c.toNat == 32 || (9 ≤ c.toNat && c.toNat ≤ 13)

/-- Decimal digits of a natural number, without leading zeros (`%u`). -/
def dec (n : Nat) : List Char :=
  if n < 10 then [digitChar n] else dec (n / 10) ++ [digitChar (n % 10)]

/-- Decimal text of an integer (`%d`). -/
def decInt (n : Int) : List Char := if n < 0 then '-' :: dec n.natAbs else dec n.natAbs

/-- Number denoted by a string of digits. -/
def decVal (l : List Char) : Nat := l.foldl (fun a c => 10 * a + (c.toNat - 48)) 0

theorem digitChar_toNat {d : Nat} (h : d < 10) : (digitChar d).toNat = 48 + d := by
  interval_cases d <;> rfl

theorem isDig_digitChar {d : Nat} (h : d < 10) : isDig (digitChar d) = true := by
  interval_cases d <;> rfl

theorem dec_isDig (n : Nat) : ∀ c ∈ dec n, isDig c = true := by
  induction n using Nat.strong_induction_on with
  | _ n ih =>
    intro c hc
    rw [dec] at hc
    split at hc
    · next h => simp at hc; subst hc; exact isDig_digitChar h
    · next h =>
      rw [List.mem_append] at hc
      rcases hc with hc | hc
      · exact ih (n / 10) (by omega) c hc
      · simp at hc; subst hc; exact isDig_digitChar (Nat.mod_lt _ (by norm_num))

theorem dec_ne_nil (n : Nat) : dec n ≠ [] := by
  rw [dec]; split <;> simp

theorem decVal_append_digit (l : List Char) {d : Nat} (h : d < 10) :
    decVal (l ++ [digitChar d]) = 10 * decVal l + d := by
  simp [decVal, digitChar_toNat h]

/-- Reading back a printed number gives the number. -/
theorem decVal_dec (n : Nat) : decVal (dec n) = n := by
  induction n using Nat.strong_induction_on with
  | _ n ih =>
    rw [dec]
    split
    · next h => simp [decVal, digitChar_toNat h]
    · next h =>
      rw [decVal_append_digit _ (Nat.mod_lt _ (by norm_num)), ih (n / 10) (by omega)]
      omega

theorem dec_injective {m n : Nat} (h : dec m = dec n) : m = n := by
  rw [← decVal_dec m, ← decVal_dec n, h]

theorem dec_length_le (n k : Nat) (h : n < 10 ^ (k + 1)) : (dec n).length ≤ k + 1 := by
  induction k generalizing n with
  | zero => rw [dec, if_pos (by simpa using h)]; simp
  | succ k ih =>
    rw [dec]
    split
    · simp
    · have := ih (n / 10) (by rw [Nat.pow_succ] at h; omega)
      simp; omega

end Vvflow
