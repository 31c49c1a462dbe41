import Verif.Proofs.Logtag
/-
C236: log tags.
-/
namespace Verif
open Logtag Logtag.Spec

/-- **C236 (text).** Whatever state the stream is in, the formatters write host name, process id or rank and the times in columns, with decimal numbers and
six decimals, and afterwards the stream formats as before: same flags, precision, fill character and even the same width for the next output. -/
theorem C236_text (e : Env) (w : Widths) (s : Stream) :
    logtag hostPidWallUser e w s = { s with out := s.out ++ pidTag w e (LeftAligned s) } ∧
    logtag hostRankWallUser e w s = { s with out := s.out ++ rankTag w e (LeftAligned s) } ∧
    logtag nullFormat e w s = s := by
  refine ⟨?_, ?_, rfl⟩ <;> unfold logtag
  · rw [pid_tag]
    rfl
  · rw [rank_tag]
    rfl

/-- **C236 (user-defined formatters).** Flags, precision and width are restored, whatever the formatter does to them. -/
theorem C236_restored (f : Formatter) (e : Env) (w : Widths) (s : Stream) :
    (logtag f e w s).flags = s.flags ∧ (logtag f e w s).precision = s.precision ∧ (logtag f e w s).width = s.width ∧
    (logtag f e w s).out = (f e w s).out := ⟨rfl, rfl, rfl, rfl⟩

/-- **C236 (local tags).** The tag in force, followed by everything inserted into the local tag. -/
theorem C236_local_tag (f : Formatter) (e : Env) (w : Widths) (s : Stream) (hs : s.width = 0) (parts : List (List Char)) :
    (putLocalTag f e w (parts.foldl appendTag []) s).out = (f e w s).out ++ parts.flatten := by
  have h : ∀ (l : List (List Char)) a, l.foldl appendTag a = a ++ l.flatten := by
    intro l
    induction l with
    | nil => simp
    | cons b l ih => intro a; simp [ih, appendTag]
  unfold putLocalTag
  rw [literal_put _ (by exact hs), h]
  rfl

/-- **C236 (alignment).** After `logtagSetupMPI()` has been called on all processes, the tags of any two processes have the same length, at any times that fit into
their columns (which are wide enough until the year 2286 and for 27 hours of computing), and on streams of any state. -/
theorem C236_aligned (procs : List Env) (w₁ w₂ : Widths) (r₁ r₂ : Nat) (h₁ : r₁ < procs.length) (h₂ : r₂ < procs.length)
    (wall₁ process₁ wall₂ process₂ : Clock.TimeSpec)
    (t₁ : InRange { procs[r₁] with wall := wall₁, process := process₁ }) (t₂ : InRange { procs[r₂] with wall := wall₂, process := process₂ })
    (left₁ left₂ : Bool) :
    (pidTag (setupMPI procs r₁ true w₁) { procs[r₁] with wall := wall₁, process := process₁ } left₁).length =
      (pidTag (setupMPI procs r₂ true w₂) { procs[r₂] with wall := wall₂, process := process₂ } left₂).length ∧
    (rankTag (setupMPI procs r₁ true w₁) { procs[r₁] with wall := wall₁, process := process₁ } left₁).length =
      (rankTag (setupMPI procs r₂ true w₂) { procs[r₂] with wall := wall₂, process := process₂ } left₂).length := by
  have key : ∀ (r : Nat) (hr : r < procs.length) (w : Widths) (wall process : Clock.TimeSpec) (left : Bool),
      InRange { procs[r] with wall := wall, process := process } →
      (pidTag (setupMPI procs r true w) { procs[r] with wall := wall, process := process } left).length =
        (procs.map fun e => e.host.length).foldl max 0 + (procs.map fun e => (numeral 10 e.pid).length).foldl max 0 + 43 ∧
      (rankTag (setupMPI procs r true w) { procs[r] with wall := wall, process := process } left).length =
        (procs.map fun e => e.host.length).foldl max 0 + (numeral 10 (procs.length - 1)).length + 43 := by
    intro r hr w wall process left ht
    have hm := List.getElem_mem hr
    have a := host_length (setupMPI procs r true w) { procs[r] with wall := wall, process := process } left
      ((foldl_max _ 0).2 _ (List.mem_map.mpr ⟨_, hm, rfl⟩))
    have b := pad_length _ (numeral 10 procs[r].pid) ((foldl_max (procs.map fun e => (numeral 10 e.pid).length) 0).2 _ (List.mem_map.mpr ⟨_, hm, rfl⟩))
    have c := times_length _ ht
    have d := pad_length (numeral 10 (procs.length - 1)).length (numeral 10 r) (numeral_mono _ _ (by omega))
    have hn : ¬ (setupMPI procs r true w).rank < 0 := by
      change ¬ ((r : Int) < 0)
      omega
    constructor
    · unfold pidTag
      simp only [List.length_append, a, c]
      change _ + ((procs.map fun e => e.host.length).foldl max 0) + _ + (padLeft _ (numeral 10 procs[r].pid)).length + 37 = _
      rw [show (setupMPI procs r true w).pidwidth = (procs.map fun e => (numeral 10 e.pid).length).foldl max 0 from rfl, b]
      simp
      omega
    · unfold rankTag
      simp only [List.length_append, a, c, if_neg hn]
      change _ + ((procs.map fun e => e.host.length).foldl max 0) + _ + (padLeft _ (numeral 10 r)).length + 37 = _
      rw [show (setupMPI procs r true w).rankwidth = (numeral 10 (procs.length - 1)).length from rfl, d]
      simp
      omega
  obtain ⟨a1, a2⟩ := key r₁ h₁ w₁ wall₁ process₁ left₁ t₁
  obtain ⟨b1, b2⟩ := key r₂ h₂ w₂ wall₂ process₂ left₂ t₂
  exact ⟨a1.trans b1.symm, a2.trans b2.symm⟩

/-- **C236 (scopes).** Every output uses the formatter in force: the one of the innermost block with a `WithLogtag` object, unless another one was set in the
block; after a block, the one before it; after setting a null pointer, the one in use at startup. Exceptions leave a program exactly if one is thrown
outside of dead code. -/
theorem C236_scopes (p : Prog) (cur : Formatter) :
    (run p cur []).2.1 = inForce hostPidWallUser cur p ∧ (run p cur []).2.2 = throws p := by
  have := run_spec p cur []
  rwa [List.nil_append] at this

/-- **C236 (end of a block).** The formatter before the block is in force again, also if the block is left by an exception. -/
theorem C236_block (f cur : Formatter) (body : Prog) : (run (.scope f body .done) cur []).1 = cur := by
  unfold run
  dsimp only
  split <;> rfl

/-- **C236 (host names).** `getHostName()` returns the name of the host up to the first dot, however long the name is. -/
theorem C236_host_name (name : List Char) (h : '\x00' ∉ name) :
    ∃ fuel, ∀ k, getHostName name (fuel + k) = some (name.takeWhile fun ch => decide (ch ≠ '.')) := by
  refine ⟨name.length + 1, fun k => ?_⟩
  have hf : name.length + 1 < 2 ^ name.length * 1024 := by
    have := @Nat.lt_two_pow_self name.length
    omega
  obtain ⟨rest, hr⟩ := hostNameLoop_spec name h name.length 1024 (by decide) hf k
  unfold getHostName
  rw [hr, Option.map_some, takeWhile_dot _ _ h]

/-! Concrete cases. -/

def logEnvs : List Env :=
  [⟨"node7".toList, 99, ⟨1700000000, 123456789⟩, ⟨3, 0⟩⟩, ⟨"login".toList, 12345, ⟨1700000001, 5⟩, ⟨0, 999999999⟩⟩]

/-- A tag written to a stream that writes hexadecimal numbers, aligns to the right and fills with stars. -/
example : (logtag hostPidWallUser logEnvs[0] (setupMPI logEnvs 0 true {}) { flags := { dec := false, hex := true }, fill := '*', width := 8 }).out =
    "[h:p=node7:   99|w=1700000000.123456|u=    3.000000] ".toList := by decide +kernel

example : ∀ e ∈ logEnvs, InRange e := by
  unfold InRange
  decide

/-- **C236 (alignment needs the setup).** -/
theorem C236_not_aligned_before_setup :
    (pidTag {} logEnvs[0] false).length ≠ (pidTag {} logEnvs[1] false).length := by decide +kernel

/-- A block that sets another formatter and throws; the output afterwards never happens, and the old formatter is back. -/
example (f g : Formatter) : run (.print (.scope f (.print (.assign (some g) (.print .throw))) (.print .done))) nullFormat [] =
    (nullFormat, [nullFormat, f, g], true) := rfl

example : getHostName "node7.cluster.example.org".toList 3 = some "node7".toList := by decide +kernel

end Verif
