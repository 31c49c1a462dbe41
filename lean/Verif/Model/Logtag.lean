import Verif.Model.Clock
/-
Model of dune/pdelab/common/logtag.hh, logtag.cc and hostname.cc. A stream has the parts of `std::basic_ios` that output of strings and numbers
depends on. Exceptions thrown by streams are not modelled (they are swallowed while writing the parts of a tag), nor is Windows.
-/
namespace Verif.Logtag

/-- The format flags of a stream that matter here (`std::ios_base::fmtflags`; set in logtag.cc:122-175). -/
structure Flags where
  left : Bool := false
  right : Bool := false
  internal : Bool := false
  dec : Bool := true
  hex : Bool := false
  oct : Bool := false
  fixed : Bool := false
  showpoint : Bool := false
deriving DecidableEq

/-- A stream (written to in logtag.cc:122-202): the characters written and the formatting state. -/
structure Stream where
  out : List Char := []
  flags : Flags := {}
  width : Nat := 0
  precision : Nat := 6
  fill : Char := ' '
deriving DecidableEq

/-- The numeral of `n` with the given base (fuel instead of termination). Used by output of numbers, logtag.cc:98, 111, 139, 155. -/
def numeralCore (base : Nat) : Nat → Nat → List Char
  | 0, _ => []
  | f + 1, n => if n < base then [Nat.digitChar n] else numeralCore base f (n / base) ++ [Nat.digitChar (n % base)]

/-- The numeral of `n`, as `operator<<` for integers writes it without `showbase` (logtag.cc:98, 111). -/
def numeral (base n : Nat) : List Char := numeralCore base (n + 1) n

/-- The base for integers: 8 or 16 if this is the only flag set in `std::ios_base::basefield`, otherwise 10 (used in logtag.cc:137-139, 153-155). -/
def Flags.base (f : Flags) : Nat :=
  if f.hex && !f.oct && !f.dec then 16 else if f.oct && !f.hex && !f.dec then 8 else 10

/-- Output of a string (used in logtag.cc:126, 137, 153, 167 and for literals): fills up to the width, after the string if `left` is the only flag set in
`std::ios_base::adjustfield`, before it otherwise; then resets the width. -/
def Stream.put (s : Stream) (text : List Char) : Stream :=
  let pad := List.replicate (s.width - text.length) s.fill
  { s with
    out := s.out ++ (if s.flags.left && !s.flags.right && !s.flags.internal then text ++ pad else pad ++ text)
    width := 0 }

/-- Output of a nonnegative number (logtag.cc:139, 155). -/
def Stream.putNat (s : Stream) (n : Nat) : Stream := s.put (numeral s.flags.base n)

/-- The characters written for a time stamp, clock.cc:40-47 (see `Clock.print`). -/
def timeText (precision : Nat) (t : Clock.TimeSpec) : List Char :=
  let p := Clock.print precision t
  (if p.negative then ['-'] else []) ++ numeral 10 p.integral ++ (if p.point then ['.'] else []) ++ p.fraction.map Nat.digitChar

/-- `operator<<` for time stamps, clock.cc:39-50: a string in the end. -/
def Stream.putTime (s : Stream) (t : Clock.TimeSpec) : Stream := s.put (timeText s.precision t)

/-- The destructor of `Dune::ios_base_all_saver` (logtag.cc:60, 123, 134, 150, 164): flags, precision and width, but not the fill character. -/
def Stream.restore (s saved : Stream) : Stream :=
  { s with flags := saved.flags, precision := saved.precision, width := saved.width }

/-- `gethostname(buf, size)` for a zero-filled buffer (called in hostname.cc:30): as much of the name and its terminating zero as fits. The last element is set
to zero by the caller, hostname.cc:31. -/
def getHostNameBuffer (name : List Char) (size : Nat) : List Char :=
  (name ++ List.replicate (size - name.length) '\x00').take (size - 1) ++ ['\x00']

/-- `std::strlen` (called in hostname.cc:32): the number of characters before the first zero. -/
def strlen (buf : List Char) : Nat := (buf.takeWhile (· ≠ '\x00')).length

/-- The loop in hostname.cc:28-36; fuel instead of termination. -/
def hostNameLoop (name : List Char) : Nat → Nat → Option (List Char)
  | 0, _ => none
  | f + 1, size =>
    let buf := getHostNameBuffer name size
    if strlen buf = size - 1 then hostNameLoop name f (2 * size) else some buf

/-- `getHostName`, hostname.cc:25-52. -/
def getHostName (name : List Char) (fuel : Nat) : Option (List Char) :=
  (hostNameLoop name fuel 1024).map fun buf => buf.takeWhile fun ch => decide (ch ≠ '\x00') && decide (ch ≠ '.')

/-- What the formatters ask the system for (logtag.cc:126, 139, 185, 187, 195, 197): host name, process id and the clocks. -/
structure Env where
  host : List Char
  pid : Nat
  wall : Clock.TimeSpec
  process : Clock.TimeSpec

/-- The static variables in logtag.cc:67-86 with their initial values. -/
structure Widths where
  rank : Int := -1
  rankwidth : Nat := 1
  hostwidth : Nat := 1
  pidwidth : Nat := 1

/-- `logtagSetupMPI`, logtag.cc:88-119, on the process `rank` of the given ones; the reductions see the values of all processes. -/
def setupMPI (procs : List Env) (rank : Nat) (sync : Bool) (w : Widths) : Widths :=
  let w := { w with rank := rank }
  if sync then
    { w with
      rankwidth := (numeral 10 (procs.length - 1)).length
      hostwidth := (procs.map fun e => e.host.length).foldl max 0
      pidwidth := (procs.map fun e => (numeral 10 e.pid).length).foldl max 0 }
  else w

/-- `writeHostName`, logtag.cc:122-131. -/
def writeHostName (e : Env) (w : Widths) (s : Stream) : Stream :=
  ({ ({ s with fill := ' ', width := w.hostwidth }.put e.host) with fill := s.fill }).restore s

/-- `writePid`, logtag.cc:133-144. `setiosflags` adds flags to those that are set. -/
def writePid (e : Env) (w : Widths) (s : Stream) : Stream :=
  ({ ({ s with fill := ' ', width := w.pidwidth, flags := { s.flags with dec := true, right := true } }.putNat e.pid) with
    fill := s.fill }).restore s

/-- `writeRank`, logtag.cc:147-160. -/
def writeRank (w : Widths) (s : Stream) : Stream :=
  if w.rank < 0 then s.put ['?']
  else
    ({ ({ s with fill := ' ', width := w.rankwidth, flags := { s.flags with dec := true, right := true } }.putNat w.rank.toNat) with
      fill := s.fill }).restore s

/-- `writeSeconds`, logtag.cc:163-175. -/
def writeSeconds (seconds : Clock.TimeSpec) (width : Nat) (s : Stream) : Stream :=
  ({ ({ s with
      fill := ' ', width := width, precision := 6,
      flags := { s.flags with dec := true, fixed := true, right := true, showpoint := true } }.putTime seconds) with
    fill := s.fill }).restore s

/-- A formatter: `writeTag` (logtag.hh:62-75) may change the stream as it likes. -/
abbrev Formatter := Env → Widths → Stream → Stream

/-- `hostRankWallUserLogtagFormatFunc`, logtag.cc:179-190. -/
def hostRankWallUser : Formatter := fun e w s =>
  let s := writeHostName e w ({ s with width := 0 }.put "[h=".toList)
  let s := writeRank w (s.put "|r=".toList)
  let s := writeSeconds e.wall 17 (s.put "|w=".toList)
  let s := writeSeconds e.process 12 (s.put "|u=".toList)
  s.put "] ".toList

/-- `hostPidWallUserLogtagFormatFunc`, logtag.cc:192-200. -/
def hostPidWallUser : Formatter := fun e w s =>
  let s := writeHostName e w ({ s with width := 0 }.put "[h:p=".toList)
  let s := writePid e w (s.put ":".toList)
  let s := writeSeconds e.wall 17 (s.put "|w=".toList)
  let s := writeSeconds e.process 12 (s.put "|u=".toList)
  s.put "] ".toList

/-- `nullFormatFunc`, logtag.cc:202. -/
def nullFormat : Formatter := fun _ _ s => s

/-- `logtag`, logtag.cc:59-63. -/
def logtag (f : Formatter) (e : Env) (w : Widths) (s : Stream) : Stream := (f e w s).restore s

/-- `operator<<` for local tags, logtag.hh:190-191. -/
def putLocalTag (f : Formatter) (e : Env) (w : Widths) (tag : List Char) (s : Stream) : Stream := (logtag f e w s).put tag

/-- `LocalTag::operator<<`, logtag.hh:180-186, for something that is printed as `text` by a new stream. -/
def appendTag (tag text : List Char) : List Char := tag ++ text

/-- Programs that use formatters: calls of `setLogtagFormatter` (with a null pointer or with one), blocks with an object of class `WithLogtag`, output of
`logtag`, exceptions (logtag.cc:41-65, logtag.hh:104-143). -/
inductive Prog where
  | done
  | assign (f : Option Formatter) (rest : Prog)
  | scope (f : Formatter) (body rest : Prog)
  | print (rest : Prog)
  | throw

/-- `setLogtagFormatter`, logtag.cc:50-57: the new value of the static variable of logtag.cc:41-45. -/
def setFormatter : Option Formatter → Formatter
  | none => hostPidWallUser
  | some f => f

/-- Execution: the static variable `formatter` (logtag.cc:41-45), the formatters used for output so far and whether an exception is on its way. The constructor of
`WithLogtag` (logtag.hh:137-140) saves the formatter, its destructor (logtag.cc:65) sets it again, also if an exception passes. -/
def run : Prog → Formatter → List Formatter → Formatter × List Formatter × Bool
  | .done, cur, log => (cur, log, false)
  | .assign f rest, _, log => run rest (setFormatter f) log
  | .scope f body rest, cur, log =>
    let saved := cur
    let r := run body (setFormatter (some f)) log
    let cur := setFormatter (some saved)
    if r.2.2 then (cur, r.2.1, true) else run rest cur r.2.1
  | .print rest, cur, log => run rest cur (log ++ [cur])
  | .throw, cur, log => (cur, log, true)

end Verif.Logtag
