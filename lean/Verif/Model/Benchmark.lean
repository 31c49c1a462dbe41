import Mathlib.Algebra.Order.Field.Basic
/-
Model of `BenchmarkHelper` (dune/pdelab/common/benchmarkhelper.hh), which measures the times of tasks in repeated runs.

The values returned by the time source are arguments of the operations. `sqrt` and the largest floating point number are parameters;
floating point numbers are elements of a linearly ordered field. Formatting of the output (`print_entry`) is left out: a report consists of
the printed numbers. The copies of `start_run`, `end_run`, `start` and `end` which also write to a stream change the state in the same way.
-/
namespace Verif.Benchmark

/-- benchmarkhelper.hh:51-61  `Timing`. -/
structure Timing (K : Type) where
  start : K
  stop : K
  deriving DecidableEq

/-- The statistics of an entry, benchmarkhelper.hh:66-69. -/
structure Stats (K : Type) where
  min : K
  max : K
  avg : K
  dev : K
  deriving DecidableEq

/-- benchmarkhelper.hh:63-70  `BenchmarkEntry`; `stats` is `none` as long as the statistics are uninitialised. -/
structure Entry (K : Type) where
  timings : List (Timing K)
  stats : Option (Stats K)
  deriving DecidableEq

/-- The members of `BenchmarkHelper`, benchmarkhelper.hh:234-242; `tasks` is a `std::map`, a list sorted by names. -/
structure Helper (N K : Type) where
  run : Nat
  maxRuns : Nat
  tasks : List (N × Entry K)
  stale : Bool
  runTimes : Entry K
  deriving DecidableEq

/-- How an operation fails: by the exception of `start_run`, or by access outside of a vector (undefined behaviour).
Source: benchmarkhelper.hh:89-92, 107, 126 and 137. -/
inductive Failure where
  | rangeError
  | undefined
  deriving DecidableEq

/-- A printed row: name (`none` for the total), times of the runs, statistics. Source: `print_entry`, benchmarkhelper.hh:186-204. -/
structure Row (N K : Type) where
  name : Option N
  times : List K
  stats : Option (Stats K)
  deriving DecidableEq

/-- The operations, with the value of the time source. Source: the methods in benchmarkhelper.hh:87-232. -/
inductive Event (N K : Type) where
  | startRun (t : K)
  | endRun (t : K)
  | start (name : N) (t : K)
  | stop (name : N) (t : K)
  | print

variable {N K : Type} [LinearOrder N] [Field K] [LinearOrder K]

/-- benchmarkhelper.hh:56-59  `Timing::elapsed`. -/
def Timing.elapsed (x : Timing K) : K := x.stop - x.start

/-- `timings.resize(max_runs)`: value-initialised timings. Source: benchmarkhelper.hh:83 and 125. -/
def fresh (n : Nat) : List (Timing K) := List.replicate n ⟨0, 0⟩

/-- benchmarkhelper.hh:76-84  the constructor. -/
def Helper.new (maxRuns : Nat) : Helper N K := ⟨0, maxRuns, [], true, ⟨fresh maxRuns, none⟩⟩

/-- `timings[run].start = time`. Source: benchmarkhelper.hh:94 and 126. -/
def setStart (x : List (Timing K)) (run : Nat) (t : K) : Except Failure (List (Timing K)) :=
  match x[run]? with
  | some y => .ok (x.set run { y with start := t })
  | none => .error .undefined

/-- `timings[run].end = time`. Source: benchmarkhelper.hh:107 and 137. -/
def setStop (x : List (Timing K)) (run : Nat) (t : K) : Except Failure (List (Timing K)) :=
  match x[run]? with
  | some y => .ok (x.set run { y with stop := t })
  | none => .error .undefined

/-- benchmarkhelper.hh:87-95  `start_run`. -/
def Helper.startRun (h : Helper N K) (t : K) : Except Failure (Helper N K) :=
  if h.maxRuns ≤ h.run then .error .rangeError
  else do
    let x ← setStart h.runTimes.timings h.run t
    .ok { h with stale := true, runTimes := { h.runTimes with timings := x } }

/-- benchmarkhelper.hh:105-109  `end_run`. -/
def Helper.endRun (h : Helper N K) (t : K) : Except Failure (Helper N K) := do
  let x ← setStop h.runTimes.timings h.run t
  .ok { h with run := h.run + 1, runTimes := { h.runTimes with timings := x } }

/-- `_tasks.find`. Source: the uses of the map in benchmarkhelper.hh:120-126 and 137. -/
def find (name : N) : List (N × Entry K) → Option (Entry K)
  | [] => none
  | x :: xs => if x.1 = name then some x.2 else find name xs

/-- Assignment to the element of a map, which is inserted at its place if it does not exist. Source: `insert` and `operator[]` of the map,
benchmarkhelper.hh:120-126 and 137. -/
def store (name : N) (e : Entry K) : List (N × Entry K) → List (N × Entry K)
  | [] => [(name, e)]
  | x :: xs =>
    if name < x.1 then (name, e) :: x :: xs
    else if x.1 = name then (name, e) :: xs
    else x :: store name e xs

/-- benchmarkhelper.hh:118-128  `start`. -/
def Helper.start (h : Helper N K) (name : N) (t : K) : Except Failure (Helper N K) := do
  let e := (find name h.tasks).getD ⟨fresh h.maxRuns, none⟩
  let x ← setStart e.timings h.run t
  .ok { h with tasks := store name { e with timings := x } h.tasks, stale := true }

/-- benchmarkhelper.hh:135-139  `end`; `_tasks[task]` is an entry without timings if there is none. -/
def Helper.stop (h : Helper N K) (name : N) (t : K) : Except Failure (Helper N K) := do
  let e := (find name h.tasks).getD ⟨[], none⟩
  let x ← setStop e.timings h.run t
  .ok { h with tasks := store name { e with timings := x } h.tasks, stale := true }

/-- The loop of `update_entry`, benchmarkhelper.hh:154-163: minimum, maximum, sum and sum of squares. -/
def accumulate (s : Stats K) (x : Timing K) : Stats K :=
  ⟨Min.min s.min x.elapsed, Max.max s.max x.elapsed, s.avg + x.elapsed, s.dev + x.elapsed * x.elapsed⟩

/-- benchmarkhelper.hh:147-168  `update_entry`. -/
def updateEntry (big : K) (sqrt : K → K) (e : Entry K) : Entry K :=
  let s := e.timings.foldl accumulate ⟨big, 0, 0, 0⟩
  let n : K := (e.timings.length : K)
  { e with stats := some ⟨s.min, s.max, s.avg / n, sqrt (s.dev / n - s.avg / n * (s.avg / n))⟩ }

/-- benchmarkhelper.hh:170-184  `update_statistics`. -/
def Helper.updateStatistics (big : K) (sqrt : K → K) (h : Helper N K) : Helper N K :=
  { h with
    tasks := h.tasks.map fun x => (x.1, updateEntry big sqrt x.2)
    runTimes := updateEntry big sqrt h.runTimes
    stale := false }

/-- benchmarkhelper.hh:186-204  `print_entry`. -/
def printEntry (name : Option N) (e : Entry K) : Row N K := ⟨name, e.timings.map Timing.elapsed, e.stats⟩

/-- benchmarkhelper.hh:206-232  `print`: the new state and the printed rows. -/
def Helper.print (big : K) (sqrt : K → K) (h : Helper N K) : Helper N K × List (Row N K) :=
  let h' := if h.stale then h.updateStatistics big sqrt else h
  (h', (h'.tasks.map fun x => printEntry (some x.1) x.2) ++ [printEntry none h'.runTimes])

/-- One operation, with the reports printed so far. Source: the methods in benchmarkhelper.hh:87-232. -/
def step (big : K) (sqrt : K → K) (s : Helper N K × List (List (Row N K))) : Event N K → Except Failure (Helper N K × List (List (Row N K)))
  | .startRun t => do let h ← s.1.startRun t; .ok (h, s.2)
  | .endRun t => do let h ← s.1.endRun t; .ok (h, s.2)
  | .start name t => do let h ← s.1.start name t; .ok (h, s.2)
  | .stop name t => do let h ← s.1.stop name t; .ok (h, s.2)
  | .print => .ok ((s.1.print big sqrt).1, s.2 ++ [(s.1.print big sqrt).2])

/-- A history of operations. Source: the methods in benchmarkhelper.hh:87-232. -/
def history (big : K) (sqrt : K → K) (s : Helper N K × List (List (Row N K))) : List (Event N K) → Except Failure (Helper N K × List (List (Row N K)))
  | [] => .ok s
  | e :: es => do
    let s' ← step big sqrt s e
    history big sqrt s' es

end Verif.Benchmark
