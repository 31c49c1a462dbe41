import Verif.Model.Logtag
/-
Specification for log tags: text, alignment, scopes.
-/
namespace Verif.Logtag.Spec
open Verif.Logtag

/-- Filled up with blanks on the left. -/
def padLeft (width : Nat) (text : List Char) : List Char := List.replicate (width - text.length) ' ' ++ text

/-- Filled up with blanks on the right. -/
def padRight (width : Nat) (text : List Char) : List Char := text ++ List.replicate (width - text.length) ' '

/-- Only host names follow the alignment of the stream. -/
def hostText (w : Widths) (e : Env) (leftAligned : Bool) : List Char :=
  if leftAligned then padRight w.hostwidth e.host else padLeft w.hostwidth e.host

/-- The times, with six decimals. -/
def timesText (e : Env) : List Char :=
  "|w=".toList ++ padLeft 17 (timeText 6 e.wall) ++ "|u=".toList ++ padLeft 12 (timeText 6 e.process) ++ "] ".toList

/-- Tags with process ids. -/
def pidTag (w : Widths) (e : Env) (leftAligned : Bool) : List Char :=
  "[h:p=".toList ++ hostText w e leftAligned ++ ":".toList ++ padLeft w.pidwidth (numeral 10 e.pid) ++ timesText e

/-- Tags with ranks, with a question mark as long as the rank is not known. -/
def rankTag (w : Widths) (e : Env) (leftAligned : Bool) : List Char :=
  "[h=".toList ++ hostText w e leftAligned ++ "|r=".toList ++
    (if w.rank < 0 then ['?'] else padLeft w.rankwidth (numeral 10 w.rank.toNat)) ++ timesText e

/-- Whether a stream aligns to the left. -/
def LeftAligned (s : Stream) : Bool := s.flags.left && !s.flags.right && !s.flags.internal

/-- The clocks show times that fit into the columns: before the year 2286, and less than 100000 seconds of computing. -/
def InRange (e : Env) : Prop := 0 ≤ e.wall.sec ∧ e.wall.sec < 10 ^ 10 ∧ 0 ≤ e.process.sec ∧ e.process.sec < 10 ^ 5

/-- Whether an exception leaves the program. -/
def throws : Prog → Bool
  | .done => false
  | .assign _ rest => throws rest
  | .scope _ body rest => throws body || throws rest
  | .print rest => throws rest
  | .throw => true

/-- The formatter in force at each output: `startup` is the one at startup, `cur` the present one. A block has its own and ends with the one before it. -/
def inForce (startup : Formatter) : Formatter → Prog → List Formatter
  | _, .done => []
  | _, .assign f rest => inForce startup (f.getD startup) rest
  | cur, .scope f body rest => inForce startup f body ++ (if throws body then [] else inForce startup cur rest)
  | cur, .print rest => cur :: inForce startup cur rest
  | _, .throw => []

end Verif.Logtag.Spec
