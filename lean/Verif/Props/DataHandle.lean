import Verif.Spec.DataHandle
import Mathlib.Data.List.Basic
/-
Theorems about communication data handles (C32).
-/
namespace Verif

open DataHandle DataHandle.Spec

namespace DataHandle

variable {Byte E : Type}

/-- The bytes of a sequence of objects. -/
def encAll {α : Type} (c : Codec Byte α) (l : List α) : List Byte := l.flatMap c.enc

theorem foldl_write {α : Type} (c : Codec Byte α) (l : List α) (buf : List Byte) : l.foldl (write c) buf = buf ++ encAll c l := by
  induction l generalizing buf with
  | nil => simp [encAll]
  | cons a l ih => rw [List.foldl_cons, ih]; simp [write, encAll]

theorem length_encAll {α : Type} (c : Codec Byte α) (l : List α) : (encAll c l).length = l.length * c.size := by
  induction l with
  | nil => simp [encAll]
  | cons a l ih =>
    have : encAll c (a :: l) = c.enc a ++ encAll c l := by simp [encAll]
    rw [this, List.length_append, ih, c.len, List.length_cons, Nat.add_mul, Nat.one_mul, Nat.add_comm]

theorem encAll_cons {α : Type} (c : Codec Byte α) (a : α) (l : List α) : encAll c (a :: l) = c.enc a ++ encAll c l := by
  simp [encAll]

theorem encAll_append {α : Type} (c : Codec Byte α) (l m : List α) : encAll c (l ++ m) = encAll c l ++ encAll c m := by
  simp [encAll]

theorem read_enc {α : Type} (c : Codec Byte α) (a : α) (rest : List Byte) : read c (c.enc a ++ rest) = .ok (a, rest) := by
  unfold read
  rw [if_neg (by rw [List.length_append, c.len]; omega), List.take_left' (c.len a), List.drop_left' (c.len a), c.dec_enc]

theorem length_partialSum (acc : Nat) (l : List Nat) : (partialSum acc l).length = l.length := by
  induction l generalizing acc with
  | nil => rfl
  | cons x xs ih => simp [partialSum, ih]

theorem foldl_add (l : List Nat) (n : Nat) : l.foldl (· + ·) n = n + l.sum := by
  induction l generalizing n with
  | nil => rfl
  | cons x xs ih => rw [List.foldl_cons, ih, List.sum_cons]; omega

theorem drain_enc (c : Codec Byte E) (xs : List E) (rest : List Byte) : drain c xs.length (encAll c xs ++ rest) = .ok rest := by
  induction xs with
  | nil => rfl
  | cons x xs ih =>
    rw [encAll_cons, List.append_assoc, List.length_cons]
    simp only [drain, read_enc]
    exact ih

theorem readOffsets_enc (c : Codec Byte Nat) (xs : List Nat) (rest : List Byte) :
    readOffsets c xs.length (encAll c xs ++ rest) = .ok (xs, rest) := by
  induction xs with
  | nil => rfl
  | cons x xs ih =>
    rw [encAll_cons, List.append_assoc, List.length_cons]
    simp only [readOffsets, read_enc, ih]

theorem scatterRange_enc (c : Codec Byte E) (comb : Nat → E → E → E) (xs : List E) (pre mid post : List E) (i : Nat)
    (hi : i = pre.length) (hm : mid.length = xs.length) (rest : List Byte) :
    scatterRange c comb xs.length i (pre ++ mid ++ post) (encAll c xs ++ rest) =
      .ok (pre ++ combineAt comb i mid xs ++ post, rest) := by
  induction xs generalizing pre mid i with
  | nil =>
    obtain rfl : mid = [] := List.length_eq_zero_iff.1 hm
    simp [scatterRange, encAll, combineAt]
  | cons x xs ih =>
    obtain ⟨d, mid, rfl⟩ : ∃ d mid', mid = d :: mid' := by
      cases mid with
      | nil => simp at hm
      | cons d m => exact ⟨d, m, rfl⟩
    rw [encAll_cons, List.append_assoc (c.enc x), List.length_cons]
    have hget : (pre ++ (d :: mid) ++ post)[i]? = some d := by
      rw [hi, List.append_assoc, List.getElem?_append_right (Nat.le_refl _), Nat.sub_self]; rfl
    have hset : (pre ++ (d :: mid) ++ post).set i (comb i d x) = (pre ++ [comb i d x]) ++ mid ++ post := by
      rw [hi, List.append_assoc, List.set_append_right _ _ (Nat.le_refl _), Nat.sub_self]; simp
    simp only [scatterRange, hget, read_enc, hset]
    rw [ih (pre ++ [comb i d x]) mid (i + 1) (by simp [hi]) (by simpa using hm)]
    simp [combineAt]

theorem combineAt_length (comb : Nat → E → E → E) (l r : List E) (i : Nat) : (combineAt comb i l r).length = l.length := by
  induction l generalizing r i with
  | nil => cases r <;> rfl
  | cons d ds ih =>
    cases r with
    | nil => rfl
    | cons x xs => simp [combineAt, ih]

theorem combineAt_nil (comb : Nat → E → E → E) (l : List E) (i : Nat) : combineAt comb i l [] = l := by
  cases l <;> rfl

theorem nil_combineAt (comb : Nat → E → E → E) (l : List E) (i : Nat) : combineAt comb i [] l = [] := by
  cases l <;> rfl

/-- The loop over the blocks, started anywhere. -/
theorem scatterBlocks_enc (c : Codec Byte E) (comb : Nat → E → E → E) (rs ls : List Nat) (hc : Compatible rs ls)
    (xs pre ds : List E) (hx : xs.length = rs.sum) (hd : ds.length = ls.sum) (ra : Nat) (commit : Bool) (rest : List Byte) :
    ∃ b, scatterBlocks c comb ((partialSum ra rs).zip (partialSum pre.length ls)) ra pre.length commit (pre ++ ds)
        (encAll c xs ++ rest) =
      .ok (pre ++ combineBlocks comb pre.length (blocks rs xs) (blocks ls ds), rest, b) := by
  induction rs generalizing ls xs pre ds ra commit with
  | nil =>
    cases ls with
    | cons l ls => exact hc.elim
    | nil =>
      obtain rfl : xs = [] := List.length_eq_zero_iff.1 hx
      obtain rfl : ds = [] := List.length_eq_zero_iff.1 hd
      exact ⟨commit, by simp [partialSum, scatterBlocks, blocks, combineBlocks, encAll]⟩
  | cons r rs ih =>
    cases ls with
    | nil => exact hc.elim
    | cons l ls =>
      obtain ⟨h1, h2⟩ := hc
      rw [List.sum_cons] at hx hd
      have hx1 : (xs.take r).length = r := by rw [List.length_take]; omega
      have hd1 : (ds.take l).length = l := by rw [List.length_take]; omega
      have hx2 : (xs.drop r).length = rs.sum := by rw [List.length_drop]; omega
      have hd2 : (ds.drop l).length = ls.sum := by rw [List.length_drop]; omega
      have hxs : encAll c xs ++ rest = encAll c (xs.take r) ++ (encAll c (xs.drop r) ++ rest) := by
        rw [← List.append_assoc, ← encAll_append, List.take_append_drop]
      simp only [partialSum, List.zip_cons_cons, scatterBlocks, blocks, combineBlocks, hd1]
      by_cases hr : r = 0
      · -- nothing received
        subst hr
        rw [if_pos (Nat.add_zero ra), List.take_zero, combineAt_nil, List.drop_zero, Nat.add_zero ra]
        have hpre : (pre ++ ds.take l).length = pre.length + l := by rw [List.length_append, hd1]
        obtain ⟨b, hb⟩ := ih ls h2 xs (pre ++ ds.take l) (ds.drop l) (by omega) hd2 ra commit
        rw [hpre, List.append_assoc, List.take_append_drop] at hb
        exact ⟨b, by rw [hb, List.append_assoc]⟩
      · rw [if_neg (by omega)]
        by_cases hl : l = 0
        · -- no DOFs here: drain
          subst hl
          rw [if_pos (Nat.add_zero _), hxs, show ra + r - ra = (xs.take r).length by omega, drain_enc,
            show max (ra + r) ra = ra + r by omega, List.take_zero, nil_combineAt, List.drop_zero, Nat.add_zero pre.length]
          obtain ⟨b, hb⟩ := ih ls h2 (xs.drop r) pre ds hx2 (by omega) (ra + r) commit
          exact ⟨b, by rw [List.nil_append]; exact hb⟩
        · have hrl : r = l := by omega
          subst hrl
          rw [if_neg (by omega), if_neg (by omega), hxs]
          have hview : pre ++ ds = pre ++ ds.take r ++ ds.drop r := by rw [List.append_assoc, List.take_append_drop]
          have hs := scatterRange_enc c comb (xs.take r) pre (ds.take r) (ds.drop r) pre.length rfl (by omega)
            (encAll c (xs.drop r) ++ rest)
          rw [hx1] at hs
          rw [show pre.length + r - pre.length = r by omega, hview, hs,
            show max (pre.length + r) pre.length = pre.length + r by omega]
          have hpre : (pre ++ combineAt comb pre.length (ds.take r) (xs.take r)).length = pre.length + r := by
            rw [List.length_append, combineAt_length, hd1]
          obtain ⟨b, hb⟩ := ih ls h2 (xs.drop r) (pre ++ combineAt comb pre.length (ds.take r) (xs.take r)) (ds.drop r) hx2 hd2
            (ra + r) true
          rw [hpre] at hb
          exact ⟨b, by rw [← List.append_assoc, ← hb]⟩

theorem offsets_drop (s : Side E) (hw : WellFormed s) : s.offsets.drop 1 = partialSum 0 s.leafSizesSetIndex := by
  unfold Side.offsets
  rw [if_pos hw.1]; rfl

theorem partialSum_last (l : List Nat) (acc : Nat) : (acc :: partialSum acc l).getLastD 0 = acc + l.sum := by
  induction l generalizing acc with
  | nil => rfl
  | cons x xs ih =>
    have := ih (acc + x)
    rw [List.sum_cons, ← Nat.add_assoc, ← this]
    rfl

/-- The bytes of one message. -/
theorem gather_eq (cfg : Config Byte E) (rank : Nat) (s : Side E) (hw : WellFormed s) (buf : List Byte) :
    gather cfg rank s buf = buf ++ ((if cfg.transmitRank then cfg.cInt.enc rank else []) ++
      ((if cfg.sendLeafSizes then encAll cfg.cSize (partialSum 0 s.leafSizesSetIndex) else []) ++ encAll cfg.cE s.dofs)) := by
  unfold gather
  dsimp only
  rw [offsets_drop s hw, foldl_write, foldl_write]
  cases cfg.transmitRank <;> cases cfg.sendLeafSizes <;> simp [write]

theorem compatible_length {rs ls : List Nat} (h : Compatible rs ls) : rs.length = ls.length := by
  induction rs generalizing ls with
  | nil => cases ls with
    | nil => rfl
    | cons => exact h.elim
  | cons r rs ih => cases ls with
    | nil => exact h.elim
    | cons l ls => simp [ih h.2]

end DataHandle

variable {Byte E : Type}

/-- C32, what is announced is what is written: `gather` appends to the buffer exactly as many bytes as `size` announces, for every
combination of transmitted data, provided that the entity has the same number of DOFs under both of its indices. -/
theorem C32_size_partial (cfg : Config Byte E) (rank : Nat) (s : Side E) (hw : WellFormed s) (hs : SizesAgree s) (buf : List Byte) :
    (gather cfg rank s buf).length = buf.length + size cfg s ∧ buf <+: gather cfg rank s buf := by
  rw [gather_eq cfg rank s hw]
  refine ⟨?_, List.prefix_append _ _⟩
  unfold size Side.dataHandleSize
  rw [DataHandle.foldl_add, hs]
  simp only [List.length_append, length_encAll, hw.2]
  cases cfg.transmitRank <;> cases cfg.sendLeafSizes <;>
    simp [length_encAll, length_partialSum, cfg.cInt.len] <;> omega

/-- C32, one message: if the layouts of the entity allow an exchange, `scatter` consumes exactly the bytes that `gather` wrote, whatever
follows in the buffer, reports the rank of the sender if it was sent, and combines each received value with the DOF at the same place of
the same leaf block. -/
theorem C32_message_partial (cfg : Config Byte E) (comb : Nat → E → E → E) (rank : Nat) (snd rcv : Side E) (hw : WellFormed snd)
    (hs : SizesAgree snd) (hx : Exchangeable cfg.sendLeafSizes snd rcv) (rest : List Byte) :
    scatter cfg comb rcv (size cfg snd) (gather cfg rank snd [] ++ rest) =
      .ok (if cfg.transmitRank then some rank else none, received cfg.sendLeafSizes comb snd rcv, rest) := by
  rw [gather_eq cfg rank snd hw, List.nil_append]
  have hrank : ∀ tail, readRank cfg ((if cfg.transmitRank then cfg.cInt.enc rank else []) ++ tail) =
      .ok (if cfg.transmitRank then some rank else none, tail) := by
    intro tail
    unfold readRank
    cases cfg.transmitRank with
    | false => rfl
    | true => simp only [if_true, read_enc]
  unfold scatter
  rw [List.append_assoc, hrank]
  dsimp only
  unfold Exchangeable at hx
  unfold received
  cases hl : cfg.sendLeafSizes with
  | false =>
    rw [hl] at hx
    simp only [Bool.false_eq_true, if_false, List.nil_append] at hx ⊢
    have hn : (if cfg.transmitRank = true then size cfg snd - cfg.cInt.size else size cfg snd) / cfg.cE.size = snd.dofs.length := by
      unfold size Side.dataHandleSize
      rw [DataHandle.foldl_add, hs, hl, hw.2, Nat.zero_add]
      cases cfg.transmitRank <;> simp [Nat.mul_div_cancel _ cfg.cE.pos]
    rw [hn]
    unfold scatterStd
    rcases hx with ⟨h1, h2⟩ | ⟨h1, h2, h3⟩
    · rw [if_pos h1, if_neg (by omega)]
      have := scatterRange_enc cfg.cE comb snd.dofs [] rcv.dofs [] 0 rfl h2.symm rest
      rw [List.nil_append, List.append_nil, List.nil_append, List.append_nil, h2] at this
      rw [this, if_pos h1]
    · rw [h1, h2, h3]
      simp [encAll, drain]
  | true =>
    rw [hl] at hx
    simp only [if_true] at hx ⊢
    have hlen : snd.leafSizesSetIndex.length = rcv.leafSizesSetIndex.length := by
      rcases hx with ⟨_, _, h⟩ | ⟨_, _, h⟩
      · exact compatible_length h
      · exact h
    rw [List.append_assoc, ← hlen, ← length_partialSum 0 snd.leafSizesSetIndex, readOffsets_enc]
    dsimp only
    unfold scatterOffsets
    rcases hx with ⟨h1, h2, h3⟩ | ⟨h1, h2, _⟩
    · rw [if_pos h1, if_pos h1, offsets_drop rcv h2]
      obtain ⟨b, hb⟩ := scatterBlocks_enc cfg.cE comb snd.leafSizesSetIndex rcv.leafSizesSetIndex h3 snd.dofs [] rcv.dofs
        hw.2 h2.2 0 false rest
      rw [List.length_nil, List.nil_append, List.nil_append] at hb
      rw [List.drop_one, List.tail_cons, hb]
    · rw [h1, h2]
      rw [partialSum_last, Nat.zero_add, ← hw.2, drain_enc]
      simp

/-- C32, whole communications: for every sequence of entities with exchangeable layouts sent in one buffer, the receiver reads the data of
each entity from the right place, and nothing is left over. -/
theorem C32_exchange_partial (cfg : Config Byte E) (comb : Nat → E → E → E) (rank : Nat) (es : List (Side E × Side E))
    (hw : ∀ e ∈ es, WellFormed e.1 ∧ SizesAgree e.1 ∧ Exchangeable cfg.sendLeafSizes e.1 e.2) :
    scatterAll cfg comb es (gatherAll cfg rank es) = .ok (es.map fun e => received cfg.sendLeafSizes comb e.1 e.2, []) := by
  have hfold : ∀ (es : List (Side E × Side E)) (buf : List Byte), (∀ e ∈ es, WellFormed e.1) →
      es.foldl (fun buf e => gather cfg rank e.1 buf) buf = buf ++ es.flatMap fun e => gather cfg rank e.1 [] := by
    intro es
    induction es with
    | nil => intro buf _; simp
    | cons e es ih =>
      intro buf h
      rw [List.foldl_cons, ih _ (fun e' he' => h e' (List.mem_cons_of_mem _ he')), List.flatMap_cons,
        gather_eq cfg rank e.1 (h e (List.mem_cons_self ..)) buf, gather_eq cfg rank e.1 (h e (List.mem_cons_self ..)) []]
      simp
  unfold gatherAll
  rw [hfold es [] (fun e he => (hw e he).1), List.nil_append]
  clear hfold
  induction es with
  | nil => rfl
  | cons e es ih =>
    obtain ⟨snd, rcv⟩ := e
    obtain ⟨h1, h2, h3⟩ := hw (snd, rcv) (List.mem_cons_self ..)
    rw [List.flatMap_cons]
    simp only [scatterAll]
    rw [C32_message_partial cfg comb rank snd rcv h1 h2 h3]
    dsimp only
    rw [ih (fun e he => hw e (List.mem_cons_of_mem _ he))]
    rfl

/-- C32, mismatches are detected: a receiver inside its partition with another number of DOFs than were sent ends with the exception for
size mismatches and not with misread data; without leaf sizes for any differing number, with leaf sizes if some leaf has a different
non-zero number on the two sides. -/
theorem C32_mismatch (cfg : Config Byte E) (comb : Nat → E → E → E) (rank : Nat) (snd rcv : Side E) (hw : WellFormed snd)
    (hr : WellFormed rcv) (hs : SizesAgree snd) (hp : rcv.inPartition = true)
    (hlen : snd.leafSizesSetIndex.length = rcv.leafSizesSetIndex.length)
    (hx : ¬ Exchangeable cfg.sendLeafSizes snd rcv) (rest : List Byte) :
    scatter cfg comb rcv (size cfg snd) (gather cfg rank snd [] ++ rest) = .error .sizeMismatch := by
  rw [gather_eq cfg rank snd hw, List.nil_append]
  have hrank : ∀ tail, readRank cfg ((if cfg.transmitRank then cfg.cInt.enc rank else []) ++ tail) =
      .ok (if cfg.transmitRank then some rank else none, tail) := by
    intro tail
    unfold readRank
    cases cfg.transmitRank with
    | false => rfl
    | true => simp only [if_true, read_enc]
  unfold scatter
  rw [List.append_assoc, hrank]
  dsimp only
  unfold Exchangeable at hx
  cases hl : cfg.sendLeafSizes with
  | false =>
    rw [hl] at hx
    simp only [Bool.false_eq_true, if_false, List.nil_append] at hx ⊢
    have hn : (if cfg.transmitRank = true then size cfg snd - cfg.cInt.size else size cfg snd) / cfg.cE.size = snd.dofs.length := by
      unfold size Side.dataHandleSize
      rw [DataHandle.foldl_add, hs, hl, hw.2, Nat.zero_add]
      cases cfg.transmitRank <;> simp [Nat.mul_div_cancel _ cfg.cE.pos]
    rw [hn]
    unfold scatterStd
    rw [if_pos hp, if_pos (fun h => hx (Or.inl ⟨hp, h.symm⟩))]
  | true =>
    rw [hl] at hx
    simp only [if_true] at hx ⊢
    rw [List.append_assoc, ← hlen, ← length_partialSum 0 snd.leafSizesSetIndex, readOffsets_enc]
    dsimp only
    unfold scatterOffsets
    rw [if_pos hp, offsets_drop rcv hr, List.drop_one, List.tail_cons]
    have key : ∀ (rs ls : List Nat) (xs pre ds : List E) (ra : Nat) (commit : Bool), rs.length = ls.length → ¬ Compatible rs ls →
        xs.length = rs.sum → ds.length = ls.sum →
        scatterBlocks cfg.cE comb ((partialSum ra rs).zip (partialSum pre.length ls)) ra pre.length commit (pre ++ ds)
          (encAll cfg.cE xs ++ rest) = .error .sizeMismatch := by
      intro rs
      induction rs with
      | nil =>
        intro ls xs pre ds ra commit hll hc _ _
        cases ls with
        | nil => exact absurd trivial hc
        | cons l ls => simp at hll
      | cons r rs ih =>
        intro ls xs pre ds ra commit hll hc hx hd
        cases ls with
        | nil => simp at hll
        | cons l ls =>
          rw [List.sum_cons] at hx hd
          have hx1 : (xs.take r).length = r := by rw [List.length_take]; omega
          have hd1 : (ds.take l).length = l := by rw [List.length_take]; omega
          have hx2 : (xs.drop r).length = rs.sum := by rw [List.length_drop]; omega
          have hd2 : (ds.drop l).length = ls.sum := by rw [List.length_drop]; omega
          have hll' : rs.length = ls.length := by simpa using hll
          have hxs : encAll cfg.cE xs ++ rest = encAll cfg.cE (xs.take r) ++ (encAll cfg.cE (xs.drop r) ++ rest) := by
            rw [← List.append_assoc, ← encAll_append, List.take_append_drop]
          simp only [partialSum, List.zip_cons_cons, scatterBlocks]
          by_cases h1 : r = 0 ∨ l = 0 ∨ r = l
          · have hc' : ¬ Compatible rs ls := fun h => hc ⟨h1, h⟩
            by_cases hr0 : r = 0
            · subst hr0
              rw [if_pos (Nat.add_zero ra), Nat.add_zero ra]
              have hpre : (pre ++ ds.take l).length = pre.length + l := by rw [List.length_append, hd1]
              have := ih ls xs (pre ++ ds.take l) (ds.drop l) ra commit hll' hc' (by omega) hd2
              rw [hpre, List.append_assoc, List.take_append_drop] at this
              exact this
            · rw [if_neg (by omega)]
              by_cases hl0 : l = 0
              · subst hl0
                rw [if_pos (Nat.add_zero _), hxs, show ra + r - ra = (xs.take r).length by omega, drain_enc,
                  show max (ra + r) ra = ra + r by omega, Nat.add_zero pre.length]
                exact ih ls (xs.drop r) pre ds (ra + r) commit hll' hc' hx2 (by omega)
              · have hrl : r = l := by omega
                subst hrl
                rw [if_neg (by omega), if_neg (by omega), hxs]
                have hview : pre ++ ds = pre ++ ds.take r ++ ds.drop r := by rw [List.append_assoc, List.take_append_drop]
                have hs' := scatterRange_enc cfg.cE comb (xs.take r) pre (ds.take r) (ds.drop r) pre.length rfl (by omega)
                  (encAll cfg.cE (xs.drop r) ++ rest)
                rw [hx1] at hs'
                rw [show pre.length + r - pre.length = r by omega, hview, hs',
                  show max (pre.length + r) pre.length = pre.length + r by omega]
                have hpre : (pre ++ combineAt comb pre.length (ds.take r) (xs.take r)).length = pre.length + r := by
                  rw [List.length_append, combineAt_length, hd1]
                have := ih ls (xs.drop r) (pre ++ combineAt comb pre.length (ds.take r) (xs.take r)) (ds.drop r) (ra + r) true
                  hll' hc' hx2 hd2
                rw [hpre] at this
                exact this
          · rw [if_neg (by omega), if_neg (by omega), if_pos (by omega)]
    have := key snd.leafSizesSetIndex rcv.leafSizesSetIndex snd.dofs [] rcv.dofs 0 false hlen
      (fun h => hx (Or.inl ⟨hp, hr, h⟩)) hw.2 hr.2
    rw [List.length_nil, List.nil_append] at this
    rw [this]

/-! ### Examples and counterexamples -/

/-- Numbers sent as a single byte. -/
def DataHandle.exCodec : Codec Nat Nat := ⟨1, fun a => [a], fun l => l.headD 0, Nat.one_pos, fun _ => rfl, fun _ => rfl⟩
/-- Numbers sent as two bytes, the number and a zero. -/
def DataHandle.exCodec2 : Codec Nat Nat := ⟨2, fun a => [a, 0], fun l => l.headD 0, by decide, fun _ => rfl, fun _ => rfl⟩

/-- Three leaves with 2, 0, 1 DOFs on the sender and 2, 3, 0 DOFs on the receiver. -/
def DataHandle.exSnd : Side Nat := ⟨true, true, [2, 0, 1], [2, 0, 1], [10, 20, 30]⟩
def DataHandle.exRcv : Side Nat := ⟨true, true, [2, 3, 0], [2, 3, 0], [1, 2, 3, 4, 5]⟩

example : WellFormed exSnd ∧ SizesAgree exSnd ∧ WellFormed exRcv ∧ Exchangeable true exSnd exRcv ∧
    ¬ Exchangeable false exSnd exRcv := by
  refine ⟨⟨rfl, rfl⟩, rfl, ⟨rfl, rfl⟩, Or.inl ⟨rfl, ⟨rfl, rfl⟩, ?_⟩, ?_⟩
  · simp [Compatible, exSnd, exRcv]
  · simp [Exchangeable, exSnd, exRcv]

example : scatterAll ⟨exCodec2, exCodec, exCodec, true, true⟩ (fun _ d x => d + x) [(exSnd, exRcv), (exSnd, exSnd)]
    (gatherAll ⟨exCodec2, exCodec, exCodec, true, true⟩ 7 [(exSnd, exRcv), (exSnd, exSnd)]) =
    .ok ([[11, 22, 3, 4, 5], [20, 40, 60]], []) := by decide

/-- C32 fails for entity sets that leave out part of the grid if the number of DOFs varies between entities of one type: the announced size
is computed with the index of the entity in the grid view, but the ordering is indexed with the index in the entity set, so that another
entity's size is announced. -/
theorem C32_size_false :
    ∃ s : Side Nat, WellFormed s ∧
      (gather ⟨exCodec, exCodec, exCodec, false, false⟩ 0 s []).length ≠ size ⟨exCodec, exCodec, exCodec, false, false⟩ s :=
  ⟨⟨true, true, [1], [2], [5, 6]⟩, ⟨rfl, rfl⟩, by decide⟩

/-- C32 fails on the receiver outside of its partition if leaf sizes are not sent: the items received for an entity without DOFs are not
taken out of the buffer, and the next entity gets them instead of its own. -/
theorem C32_outside_false :
    ∃ es : List (Side Nat × Side Nat), (∀ e ∈ es, WellFormed e.1 ∧ SizesAgree e.1 ∧
        (e.2.inPartition = true → e.2.dofs.length = e.1.dofs.length) ∧ (e.2.inPartition = false → e.2.dofs = [])) ∧
      scatterAll ⟨exCodec, exCodec, exCodec, false, false⟩ (fun _ _ x => x) es
        (gatherAll ⟨exCodec, exCodec, exCodec, false, false⟩ 0 es) = .ok ([[], [10]], [20]) ∧
      es.map (fun e => received false (fun _ _ x => x) e.1 e.2) = [[], [20]] := by
  refine ⟨[(⟨true, true, [1], [1], [10]⟩, ⟨false, true, [0], [0], []⟩), (⟨true, true, [1], [1], [20]⟩, ⟨true, true, [1], [1], [0]⟩)],
    ?_, by decide, by decide⟩
  intro e he
  simp only [List.mem_cons, List.not_mem_nil, or_false] at he
  rcases he with rfl | rfl <;> simp [WellFormed, SizesAgree]

/-- C32 fails for the handles sending one item per entity (ghosts, disjoint partitioning, shared DOFs): for entities outside of the entity
set nothing is announced, but one item is written. -/
theorem C32_entity_false : ∃ sizeE sizeInt, entitySize sizeE sizeInt 1 false true false ≠ entityItemsWritten :=
  ⟨1, 4, by decide⟩

end Verif
