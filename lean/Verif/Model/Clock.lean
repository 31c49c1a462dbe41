/-
Model of dune/pdelab/common/clock.hh and of the output operator in clock.cc.
Integers are unbounded (overflow of `time_t` is not modelled).
-/
namespace Verif.Clock

/-- common/clock.hh:17-24  `TimeSpec`. -/
structure TimeSpec where
  sec : Int
  nsec : Int
deriving DecidableEq, Repr

/-- common/clock.hh:26-34  `operator+=`. -/
def TimeSpec.add (a o : TimeSpec) : TimeSpec :=
  let t : TimeSpec := ⟨a.sec + o.sec, a.nsec + o.nsec⟩
  if t.nsec ≥ 1000000000 then ⟨t.sec + 1, t.nsec - 1000000000⟩ else t

/-- common/clock.hh:40-48  `operator-=`. -/
def TimeSpec.sub (a o : TimeSpec) : TimeSpec :=
  let t : TimeSpec := ⟨a.sec - o.sec, a.nsec - o.nsec⟩
  if t.nsec < 0 then ⟨t.sec - 1, t.nsec + 1000000000⟩ else t

/-- What is printed: sign, digits of the integral part as a number, and, unless cut off, the decimal point with the list of digits after it.
Source: common/clock.cc:39-50. -/
structure Printed where
  negative : Bool
  integral : Nat
  fraction : List Nat
  point : Bool
deriving DecidableEq, Repr

/-- The lowest `n` decimal digits of `k`, most significant first (what `setw(n)` with fill character `0` prints for `k < 10^n`).
Source: common/clock.cc:41. -/
def digits : Nat → Nat → List Nat
  | 0, _ => []
  | n + 1, k => digits n (k / 10) ++ [k % 10]

/-- common/clock.cc:39-49  `operator<<` for a stream with the given precision. The characters are kept apart as sign, integral part and
fraction; the truncation of the string only reaches the fraction and the point. -/
def print (precision : Nat) (t : TimeSpec) : Printed :=
  let frac := digits 9 t.nsec.toNat
  let frac := if precision < 9 then frac.take (frac.length - (9 - precision)) else frac
  ⟨decide (t.sec < 0), t.sec.natAbs, frac, decide (precision ≠ 0)⟩

/-- clock.cc:169-178  the sum of user and system time in `getrusageProcessTime`, with microsecond parts. -/
def getrusageProcessTime (usec uusec ssec susec : Int) : TimeSpec :=
  TimeSpec.add ⟨usec, 1000 * uusec⟩ ⟨ssec, 1000 * susec⟩

end Verif.Clock
