import Verif.Spec.Logtag
import Verif.Props.Clock
import Mathlib.Tactic.Ring
/-
Helper lemmas for C236.
-/
namespace Verif.Logtag
open Verif.Logtag.Spec

theorem host_put (e : Env) (w : Widths) (s : Stream) :
    writeHostName e w s = { s with out := s.out ++ hostText w e (LeftAligned s) } := by
  unfold writeHostName Stream.restore Stream.put hostText LeftAligned padLeft padRight
  rfl

theorem base_dec (f : Flags) : ({ f with dec := true, right := true } : Flags).base = 10 := by
  unfold Flags.base
  simp

theorem pid_put (e : Env) (w : Widths) (s : Stream) :
    writePid e w s = { s with out := s.out ++ padLeft w.pidwidth (numeral 10 e.pid) } := by
  unfold writePid Stream.restore Stream.putNat
  simp only [base_dec, Stream.put, padLeft, Bool.not_true, Bool.and_false, Bool.false_and, Bool.false_eq_true, if_false]

theorem rank_put (w : Widths) (s : Stream) (hs : s.width = 0) :
    writeRank w s = { s with out := s.out ++ (if w.rank < 0 then ['?'] else padLeft w.rankwidth (numeral 10 w.rank.toNat)) } := by
  unfold writeRank
  split
  · unfold Stream.put
    simp [hs]
  · unfold Stream.restore Stream.putNat
    simp only [base_dec, Stream.put, padLeft, Bool.not_true, Bool.and_false, Bool.false_and, Bool.false_eq_true, if_false]

theorem seconds_put (t : Clock.TimeSpec) (width : Nat) (s : Stream) :
    writeSeconds t width s = { s with out := s.out ++ padLeft width (timeText 6 t) } := by
  unfold writeSeconds Stream.restore Stream.putTime
  simp only [Stream.put, padLeft, Bool.not_true, Bool.and_false, Bool.false_and, Bool.false_eq_true, if_false]

theorem literal_put (s : Stream) (hs : s.width = 0) (text : List Char) : s.put text = { s with out := s.out ++ text } := by
  unfold Stream.put
  simp [hs]

theorem pid_tag (e : Env) (w : Widths) (s : Stream) :
    hostPidWallUser e w s = { s with out := s.out ++ pidTag w e (LeftAligned s), width := 0 } := by
  unfold hostPidWallUser pidTag timesText
  simp only [literal_put { s with width := 0 } rfl, host_put, pid_put, seconds_put]
  rw [literal_put _ rfl, literal_put _ rfl, literal_put _ rfl, literal_put _ rfl]
  simp only [List.append_assoc, LeftAligned]

theorem rank_tag (e : Env) (w : Widths) (s : Stream) :
    hostRankWallUser e w s = { s with out := s.out ++ rankTag w e (LeftAligned s), width := 0 } := by
  unfold hostRankWallUser rankTag timesText
  simp only [literal_put { s with width := 0 } rfl, host_put, seconds_put]
  rw [literal_put _ rfl, rank_put _ _ rfl, literal_put _ rfl, literal_put _ rfl, literal_put _ rfl]
  simp only [List.append_assoc, LeftAligned]

/-! Numbers of digits. -/

theorem core_length_le (f n k : Nat) (hk : 0 < k) (h : n < 10 ^ k) : (numeralCore 10 f n).length ≤ k := by
  induction f generalizing n k with
  | zero => simp [numeralCore]
  | succ f ih =>
    unfold numeralCore
    split
    · exact hk
    · rename_i hn
      obtain ⟨k, rfl⟩ : ∃ j, k = j + 1 := ⟨k - 1, by omega⟩
      rw [pow_succ] at h
      have hk' : 0 < k := by
        rcases Nat.eq_zero_or_pos k with rfl | h0
        · simp at h; omega
        · exact h0
      have := ih (n / 10) k hk' (by omega)
      rw [List.length_append]
      simpa using this

theorem core_lt (f n : Nat) (h : n < f) : n < 10 ^ (numeralCore 10 f n).length := by
  induction f generalizing n with
  | zero => omega
  | succ f ih =>
    unfold numeralCore
    split
    · simpa
    · have := ih (n / 10) (by omega)
      rw [List.length_append, List.length_singleton, pow_succ]
      omega

theorem numeral_pos (n : Nat) : 0 < (numeral 10 n).length := by
  unfold numeral numeralCore
  split <;> simp

theorem numeral_mono (n m : Nat) (h : n ≤ m) : (numeral 10 n).length ≤ (numeral 10 m).length :=
  core_length_le _ _ _ (numeral_pos m) (h.trans_lt (core_lt _ _ (Nat.lt_succ_self m)))

theorem pad_length (width : Nat) (text : List Char) (h : text.length ≤ width) : (padLeft width text).length = width := by
  unfold padLeft
  rw [List.length_append, List.length_replicate]
  omega

theorem padRight_length (width : Nat) (text : List Char) (h : text.length ≤ width) : (padRight width text).length = width := by
  unfold padRight
  rw [List.length_append, List.length_replicate]
  omega

theorem time_length (t : Clock.TimeSpec) (k : Nat) (hk : 0 < k) (h0 : 0 ≤ t.sec) (h : t.sec < 10 ^ k) : (timeText 6 t).length ≤ k + 7 := by
  have h1 : (numeral 10 t.sec.natAbs).length ≤ k := by
    refine core_length_le _ _ _ hk ?_
    have : ((t.sec.natAbs : Nat) : Int) < ((10 ^ k : Nat) : Int) := by
      rw [Int.natAbs_of_nonneg h0]
      push_cast
      exact h
    exact_mod_cast this
  unfold timeText Clock.print
  have hn : ¬ t.sec < 0 := by omega
  simp only [hn, decide_false, Bool.false_eq_true, if_false, List.nil_append, List.length_append, List.length_map]
  simp [Clock.digits_length]
  omega

theorem foldl_max (l : List Nat) (a : Nat) : a ≤ l.foldl max a ∧ ∀ x ∈ l, x ≤ l.foldl max a := by
  induction l generalizing a with
  | nil => exact ⟨le_rfl, by simp⟩
  | cons b l ih =>
    obtain ⟨h1, h2⟩ := ih (max a b)
    refine ⟨(le_max_left a b).trans h1, fun x hx => ?_⟩
    rcases List.mem_cons.mp hx with rfl | hx
    · exact (le_max_right a x).trans h1
    · exact h2 x hx

theorem times_length (e : Env) (h : InRange e) : (timesText e).length = 37 := by
  obtain ⟨h1, h2, h3, h4⟩ := h
  have a := pad_length 17 _ (time_length e.wall 10 (by decide) h1 h2)
  have b := pad_length 12 _ (time_length e.process 5 (by decide) h3 h4)
  unfold timesText
  simp only [List.length_append, a, b]
  decide

theorem host_length (w : Widths) (e : Env) (b : Bool) (h : e.host.length ≤ w.hostwidth) : (hostText w e b).length = w.hostwidth := by
  unfold hostText
  split
  · exact padRight_length _ _ h
  · exact pad_length _ _ h

/-! Host names. -/

theorem takeWhile_zero (name : List Char) (h : '\x00' ∉ name) (k : Nat) (rest : List Char) :
    (name ++ '\x00' :: rest).takeWhile (· ≠ '\x00') = name ∧ strlen (name.take k ++ ['\x00']) = min k name.length := by
  have key : ∀ l : List Char, '\x00' ∉ l → ∀ r, (l ++ '\x00' :: r).takeWhile (· ≠ '\x00') = l := by
    intro l hl r
    induction l with
    | nil => simp
    | cons a l ih =>
      have ha : a ≠ '\x00' := fun e => hl (e ▸ List.mem_cons_self)
      have := ih fun hm => hl (List.mem_cons_of_mem _ hm)
      simp only [List.cons_append, List.takeWhile_cons, ne_eq, ha, not_false_eq_true, decide_true, if_true]
      congr 1
  refine ⟨key name h rest, ?_⟩
  unfold strlen
  rw [key _ (fun hm => h (List.mem_of_mem_take hm)) [], List.length_take]

theorem buffer_eq (name : List Char) (size : Nat) (hs : 0 < size) :
    getHostNameBuffer name size = if size ≤ name.length + 1 then name.take (size - 1) ++ ['\x00'] else
      name ++ '\x00' :: (List.replicate (size - 1 - name.length - 1) '\x00' ++ ['\x00']) := by
  unfold getHostNameBuffer
  split
  · rw [List.take_append_of_le_length (by omega)]
  · rw [List.take_append, List.take_of_length_le (by omega), List.take_replicate,
      show min (size - 1 - name.length) (size - name.length) = (size - 1 - name.length - 1) + 1 by omega, List.replicate_succ]
    simp

theorem hostNameLoop_spec (name : List Char) (h : '\x00' ∉ name) (fuel size : Nat) (hs : 0 < size) (hf : name.length + 1 < 2 ^ fuel * size) :
    ∀ k, ∃ rest, hostNameLoop name (fuel + 1 + k) size = some (name ++ '\x00' :: rest) := by
  intro k
  induction fuel generalizing size with
  | zero =>
    rw [pow_zero, one_mul] at hf
    rw [show 0 + 1 + k = k + 1 by omega]
    unfold hostNameLoop
    have hb := buffer_eq name size hs
    rw [if_neg (by omega)] at hb
    have hl : strlen (getHostNameBuffer name size) = name.length := by
      unfold strlen
      rw [hb, (takeWhile_zero name h 0 _).1]
    dsimp only
    rw [hl, if_neg (by omega), hb]
    exact ⟨_, rfl⟩
  | succ fuel ih =>
    rw [show fuel + 1 + 1 + k = (fuel + 1 + k) + 1 by omega]
    unfold hostNameLoop
    have hb := buffer_eq name size hs
    dsimp only
    by_cases hc : size ≤ name.length + 1
    · rw [if_pos hc] at hb
      rw [hb, (takeWhile_zero name h (size - 1) []).2, if_pos (by omega)]
      refine ih (2 * size) (by omega) ?_
      rw [pow_succ] at hf
      calc name.length + 1 < 2 ^ fuel * 2 * size := hf
        _ = 2 ^ fuel * (2 * size) := by ring
    · rw [if_neg hc] at hb
      have hl : strlen (getHostNameBuffer name size) = name.length := by
        unfold strlen
        rw [hb, (takeWhile_zero name h 0 _).1]
      rw [hl, if_neg (by omega), hb]
      exact ⟨_, rfl⟩

theorem takeWhile_dot (name rest : List Char) (h : '\x00' ∉ name) :
    (name ++ '\x00' :: rest).takeWhile (fun ch => decide (ch ≠ '\x00') && decide (ch ≠ '.')) = name.takeWhile fun ch => decide (ch ≠ '.') := by
  induction name with
  | nil => simp
  | cons a l ih =>
    have ha : a ≠ '\x00' := fun e => h (e ▸ List.mem_cons_self)
    have := ih fun hm => h (List.mem_cons_of_mem _ hm)
    simp only [List.cons_append, List.takeWhile_cons, this]
    by_cases hd : a = '.' <;> simp [ha, hd]

/-! Scopes. -/

theorem run_spec (p : Prog) (cur : Formatter) (log : List Formatter) :
    (run p cur log).2.1 = log ++ inForce hostPidWallUser cur p ∧ (run p cur log).2.2 = throws p := by
  induction p generalizing cur log with
  | done => simp [run, inForce, throws]
  | assign f rest ih =>
    unfold run inForce throws
    have : setFormatter f = f.getD hostPidWallUser := by cases f <;> rfl
    rw [this]
    exact ih _ _
  | scope f body rest ihb ihr =>
    obtain ⟨h1, h2⟩ := ihb f log
    simp only [run, inForce, throws, setFormatter, h1, h2]
    cases throws body
    · obtain ⟨h3, h4⟩ := ihr cur (log ++ inForce hostPidWallUser f body)
      simp [h3, h4]
    · simp
  | print rest ih =>
    obtain ⟨h1, h2⟩ := ih cur (log ++ [cur])
    unfold run inForce throws
    simp [h1, h2]
  | throw => simp [run, inForce, throws]

end Verif.Logtag
