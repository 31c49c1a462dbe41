import Verif.Model.Clock
import Mathlib.Algebra.Order.Ring.Int
import Mathlib.Tactic.Linarith
import Mathlib.Tactic.Ring
import Mathlib.Tactic.NormNum
/-
Theorems about time stamps (C29, C76).
-/
namespace Verif

open Clock

namespace Clock.Spec

/-- The represented duration in nanoseconds. -/
def nanos (t : TimeSpec) : Int := t.sec * 1000000000 + t.nsec

/-- `0 <= tv_nsec < 1e9`, as documented. -/
def Normal (t : TimeSpec) : Prop := 0 ≤ t.nsec ∧ t.nsec < 1000000000

/-- The number denoted by a list of decimal digits. -/
def ofDigits : List Nat → Nat := List.foldl (fun n d => 10 * n + d) 0

/-- The number a reader sees, in units of the last printed digit. -/
def read (p : Printed) : Int :=
  (if p.negative then -1 else 1) * (p.integral * 10 ^ p.fraction.length + ofDigits p.fraction : Nat)

end Clock.Spec

open Clock.Spec

/-- C29, addition: for all normalised time stamps the sum is normalised and denotes the sum. -/
theorem C29_addition (a b : TimeSpec) (ha : Normal a) (hb : Normal b) :
    Normal (a.add b) ∧ nanos (a.add b) = nanos a + nanos b := by
  obtain ⟨h1, h2⟩ := ha
  obtain ⟨h3, h4⟩ := hb
  unfold TimeSpec.add nanos Normal
  dsimp only
  split <;> exact ⟨⟨by dsimp only; omega, by dsimp only; omega⟩, by dsimp only; omega⟩

/-- C29, subtraction: for all normalised time stamps the difference is normalised and denotes the difference. -/
theorem C29_subtraction (a b : TimeSpec) (ha : Normal a) (hb : Normal b) :
    Normal (a.sub b) ∧ nanos (a.sub b) = nanos a - nanos b := by
  obtain ⟨h1, h2⟩ := ha
  obtain ⟨h3, h4⟩ := hb
  unfold TimeSpec.sub nanos Normal
  dsimp only
  split <;> exact ⟨⟨by dsimp only; omega, by dsimp only; omega⟩, by dsimp only; omega⟩

/-- C29: subtraction inverts addition, as time stamps. -/
theorem C29_sub_add (a b : TimeSpec) (ha : Normal a) (hb : Normal b) : (a.add b).sub b = a := by
  obtain ⟨n, e⟩ := C29_addition a b ha hb
  obtain ⟨n', e'⟩ := C29_subtraction (a.add b) b n hb
  rw [e] at e'
  unfold nanos at e'
  obtain ⟨h1, h2⟩ := ha
  obtain ⟨h3, h4⟩ := n'
  have : ((a.add b).sub b).nsec = a.nsec ∧ ((a.add b).sub b).sec = a.sec := by omega
  cases h : (a.add b).sub b
  rw [h] at this
  cases a
  simp_all

/-- C29: the process time computed from user and system time is normalised and their sum. -/
theorem C29_getrusage (us uu ss su : Int) (h : 0 ≤ uu ∧ uu < 1000000) (h' : 0 ≤ su ∧ su < 1000000) :
    Normal (getrusageProcessTime us uu ss su) ∧
    nanos (getrusageProcessTime us uu ss su) = (us + ss) * 1000000000 + 1000 * (uu + su) := by
  have := C29_addition ⟨us, 1000 * uu⟩ ⟨ss, 1000 * su⟩ (by unfold Normal; dsimp only; omega) (by unfold Normal; dsimp only; omega)
  refine ⟨this.1, ?_⟩
  show nanos (TimeSpec.add _ _) = _
  rw [this.2]
  unfold nanos
  dsimp only
  ring

example : Normal ⟨3, 999999999⟩ ∧ Normal ⟨-2, 2⟩ := by unfold Normal; decide
example : TimeSpec.add ⟨3, 999999999⟩ ⟨-2, 2⟩ = ⟨2, 1⟩ ∧ TimeSpec.sub ⟨2, 1⟩ ⟨-2, 2⟩ = ⟨3, 999999999⟩ := by decide

/-! ### Output -/

theorem Clock.digits_length (n k : Nat) : (digits n k).length = n := by
  induction n generalizing k with
  | zero => rfl
  | succ n ih => simp [digits, ih]

theorem Clock.take_digits (m n k : Nat) (h : m ≤ n) : (digits n k).take m = digits m (k / 10 ^ (n - m)) := by
  induction n generalizing k with
  | zero =>
    have : m = 0 := by omega
    subst this
    rfl
  | succ n ih =>
    rcases Nat.lt_succ_iff_lt_or_eq.1 (Nat.lt_succ_of_le h) with h' | h'
    · rw [digits, List.take_append_of_le_length (by rw [digits_length]; omega), ih _ (by omega), Nat.div_div_eq_div_mul,
        ← Nat.pow_succ', show (n - m).succ = n + 1 - m by omega]
    · subst h'
      rw [Nat.sub_self, Nat.pow_zero, Nat.div_one, List.take_of_length_le (by rw [digits_length])]

theorem Clock.ofDigits_digits (n k : Nat) (h : k < 10 ^ n) : ofDigits (digits n k) = k := by
  induction n generalizing k with
  | zero => simp at h; subst h; rfl
  | succ n ih =>
    have := ih (k / 10) (by rw [Nat.div_lt_iff_lt_mul (by norm_num), ← Nat.pow_succ]; exact h)
    unfold ofDigits at this ⊢
    rw [digits, List.foldl_append, this]
    show 10 * (k / 10) + k % 10 = k
    omega

/-- C76 (nonnegative time stamps). A normalised, nonnegative time stamp is printed with `min precision 9` digits after the point, and the number
printed is the largest number with that many digits that is not larger. Missing: negative time stamps (`C76_false`). -/
theorem C76_print_partial (precision : Nat) (t : TimeSpec) (h : Normal t) (hs : 0 ≤ t.sec) :
    (print precision t).fraction.length = min precision 9 ∧
    Clock.Spec.read (print precision t) * 10 ^ (9 - min precision 9) ≤ nanos t ∧
    nanos t < (Clock.Spec.read (print precision t) + 1) * 10 ^ (9 - min precision 9) := by
  have hfrac : (print precision t).fraction = digits (min precision 9) (t.nsec.toNat / 10 ^ (9 - min precision 9)) := by
    unfold print
    dsimp only
    rw [digits_length]
    split
    · rename_i hp
      rw [show 9 - (9 - precision) = precision by omega, take_digits _ _ _ (by omega), Nat.min_eq_left (by omega)]
    · rename_i hp
      rw [Nat.min_eq_right (by omega), Nat.sub_self, Nat.pow_zero, Nat.div_one]
  have hlen : (print precision t).fraction.length = min precision 9 := by rw [hfrac, digits_length]
  refine ⟨hlen, ?_⟩
  have hneg : (print precision t).negative = false := by
    unfold print; simp; exact hs
  have hint : ((print precision t).integral : Int) = t.sec := by
    unfold print; dsimp only; omega
  obtain ⟨h1, h2⟩ := h
  have hn : (t.nsec.toNat : Int) = t.nsec := Int.toNat_of_nonneg h1
  have hq : min precision 9 ≤ 9 := min_le_right _ _
  have hsplit : 10 ^ (min precision 9) * 10 ^ (9 - min precision 9) = 1000000000 := by
    rw [← Nat.pow_add, show min precision 9 + (9 - min precision 9) = 9 by omega]
  have hlt : t.nsec.toNat / 10 ^ (9 - min precision 9) < 10 ^ (min precision 9) := by
    rw [Nat.div_lt_iff_lt_mul (Nat.pow_pos (by norm_num)), hsplit]
    omega
  have hread : Clock.Spec.read (print precision t) =
      t.sec * 10 ^ (min precision 9) + ((t.nsec.toNat / 10 ^ (9 - min precision 9) : Nat) : Int) := by
    unfold Clock.Spec.read
    rw [hneg, hlen, hfrac, ofDigits_digits _ _ hlt]
    push_cast
    rw [hint]
    simp
  rw [hread]
  unfold nanos
  have hsplit' : (10 : Int) ^ (min precision 9) * 10 ^ (9 - min precision 9) = 1000000000 := by exact_mod_cast hsplit
  have d1 : ((t.nsec.toNat / 10 ^ (9 - min precision 9) : Nat) : Int) * 10 ^ (9 - min precision 9) ≤ t.nsec := by
    rw [← hn]
    exact_mod_cast Nat.div_mul_le_self _ _
  have d2 : t.nsec < (((t.nsec.toNat / 10 ^ (9 - min precision 9) : Nat) : Int) + 1) * 10 ^ (9 - min precision 9) := by
    rw [← hn]
    have hp : 0 < 10 ^ (9 - min precision 9) := Nat.pow_pos (by norm_num)
    have := Nat.lt_div_mul_add (a := t.nsec.toNat) hp
    have h3 : t.nsec.toNat < (t.nsec.toNat / 10 ^ (9 - min precision 9) + 1) * 10 ^ (9 - min precision 9) := by
      rw [Nat.add_mul, Nat.one_mul]; exact this
    exact_mod_cast h3
  constructor
  · calc _ = t.sec * (10 ^ (min precision 9) * 10 ^ (9 - min precision 9)) +
          ((t.nsec.toNat / 10 ^ (9 - min precision 9) : Nat) : Int) * 10 ^ (9 - min precision 9) := by ring
      _ ≤ _ := by rw [hsplit']; linarith
  · calc _ < t.sec * (10 ^ (min precision 9) * 10 ^ (9 - min precision 9)) +
          (((t.nsec.toNat / 10 ^ (9 - min precision 9) : Nat) : Int) + 1) * 10 ^ (9 - min precision 9) := by
          rw [hsplit']; linarith
      _ = _ := by ring

example : print 3 ⟨2, 56789000⟩ = ⟨false, 2, [0, 5, 6], true⟩ := by decide

/-- C76 is false for negative time stamps: minus half a second, the difference of one second and one and a half, is printed as
`-1.500000000`. -/
theorem C76_false : Normal (TimeSpec.sub ⟨1, 0⟩ ⟨1, 500000000⟩) ∧ nanos (TimeSpec.sub ⟨1, 0⟩ ⟨1, 500000000⟩) = -500000000 ∧
    Clock.Spec.read (print 9 (TimeSpec.sub ⟨1, 0⟩ ⟨1, 500000000⟩)) = -1500000000 := by
  unfold Normal; decide +kernel

end Verif
