import Verif.Spec.VectorIterator
import Mathlib.Data.List.Basic
/-
Helper lemmas about the flat iterator (C37).
-/
namespace Verif.VectorIterator

open Spec

variable {α : Type}

mutual
/-- All index paths in the order of the iteration. -/
def paths : Vec α → List (List Nat)
  | .one _ => [[0]]
  | .leaf xs => (List.range xs.length).map fun i => [i]
  | .block bs => pathsFrom 0 bs
def pathsFrom : Nat → List (Vec α) → List (List Nat)
  | _, [] => []
  | i, b :: bs => (paths b).map (i :: ·) ++ pathsFrom (i + 1) bs
end

/-- The state stands at path `p`, and `r` are the paths still to come. -/
def At (v : Vec α) (l : Nat) (st : St) (p : List Nat) (r : List (List Nat)) : Prop :=
  match v, p with
  | .one _, p => p = [0] ∧ r = []
  | .leaf xs, p => st.it l < xs.length ∧ p = [st.it l] ∧
      r = (List.range' (st.it l + 1) (xs.length - (st.it l + 1))).map fun i => [i]
  | .block _, [] => False
  | .block bs, i :: p' => ∃ b r', st.it l = i ∧ bs[i]? = some b ∧ At b (l + 1) st p' r' ∧
      r = r'.map (i :: ·) ++ pathsFrom (i + 1) (bs.drop (i + 1))
termination_by p.length

/-- Iterators below level `l` are the same, and so is the end flag. -/
def Agree (l : Nat) (a b : St) : Prop := (∀ k, k < l → a.it k = b.it k) ∧ a.atEnd = b.atEnd

theorem Agree.refl (l : Nat) (a : St) : Agree l a a := ⟨fun _ _ => rfl, rfl⟩
theorem Agree.trans {l : Nat} {a b c : St} (h : Agree l a b) (h' : Agree l b c) : Agree l a c :=
  ⟨fun k hk => (h.1 k hk).trans (h'.1 k hk), h.2.trans h'.2⟩
theorem Agree.mono {l m : Nat} {a b : St} (h : Agree m a b) (hl : l ≤ m) : Agree l a b :=
  ⟨fun k hk => h.1 k (by omega), h.2⟩
theorem agree_setIt (st : St) (l i : Nat) : Agree l st (st.setIt l i) :=
  ⟨fun k hk => by simp [St.setIt, show k ≠ l by omega], rfl⟩
theorem agree_current (st : St) (l : Nat) (c : Option (List Nat)) : Agree l st { st with current := c } := ⟨fun _ _ => rfl, rfl⟩

theorem pre_congr {l : Nat} {a b : St} (h : Agree l a b) : a.pre l = b.pre l := by
  unfold St.pre
  refine List.map_congr_left ?_
  intro k hk
  exact h.1 k (List.mem_range.1 hk)

theorem pre_succ (st : St) (l : Nat) : st.pre (l + 1) = st.pre l ++ [st.it l] := by
  simp [St.pre, List.range_succ]

theorem setIt_it (st : St) (l i : Nat) : (st.setIt l i).it l = i := by simp [St.setIt]

/-- What `start` and the like shall return for the list `es` of paths: the first one, at which the new state stands. -/
def Result (l : Nat) (st : St) (at' : St → List Nat → List (List Nat) → Prop) (es : List (List Nat)) (res : Bool × St) : Prop :=
  Agree l st res.2 ∧
  match es with
  | [] => res.1 = false
  | p :: r => res.1 = true ∧ res.2.current = some (st.pre l ++ p) ∧ at' res.2 p r

/-- Standing in the block at position `j ≥ i`, where `bs` are the blocks from position `i` on. -/
def AtFrom (i : Nat) (bs : List (Vec α)) (l : Nat) (st : St) (p : List Nat) (r : List (List Nat)) : Prop :=
  ∃ j b p' r', st.it l = i + j ∧ p = (i + j) :: p' ∧ bs[j]? = some b ∧ At b (l + 1) st p' r' ∧
    r = r'.map ((i + j) :: ·) ++ pathsFrom (i + j + 1) (bs.drop (j + 1))

theorem at_block (bs : List (Vec α)) (l : Nat) (st : St) (p : List Nat) (r : List (List Nat)) :
    At (.block bs) l st p r ↔ AtFrom 0 bs l st p r := by
  unfold AtFrom
  simp only [Nat.zero_add]
  cases p with
  | nil => simp [At]
  | cons i q =>
    rw [At]
    constructor
    · rintro ⟨b, r', h1, h3, h4, h5⟩; exact ⟨i, b, q, r', h1, rfl, h3, h4, h5⟩
    · rintro ⟨j, b, p', r', h1, h2, h3, h4, h5⟩
      cases h2
      exact ⟨b, r', h1, h3, h4, h5⟩

mutual
theorem start_spec : (v : Vec α) → (l : Nat) → (st : St) → Result l st (At v l) (paths v) (start v l st)
  | .one x, l, st => by
    refine ⟨agree_current st l _, ?_⟩
    simp only [paths, start]
    exact ⟨trivial, trivial, by simp [At]⟩
  | .leaf xs, l, st => by
    simp only [paths, start]
    cases hx : xs.length with
    | zero => exact ⟨agree_setIt st l 0, by simp⟩
    | succ n =>
      rw [if_neg (by omega)]
      refine ⟨(agree_setIt st l 0).trans (agree_current _ l _), ?_⟩
      rw [List.range_eq_range', List.range'_succ, List.map_cons]
      refine ⟨rfl, ?_, ?_⟩
      · show some _ = _
        rw [pre_succ, setIt_it, ← pre_congr (agree_setIt st l 0)]
      · rw [At]
        simp [setIt_it, hx]
  | .block bs, l, st => by
    simp only [paths, start]
    obtain ⟨h1, h2⟩ := startFrom_spec bs l (st.setIt l 0) 0 (setIt_it st l 0)
    refine ⟨(agree_setIt st l 0).trans h1, ?_⟩
    cases hp : pathsFrom 0 bs with
    | nil => rw [hp] at h2; exact h2
    | cons p r =>
      rw [hp] at h2
      refine ⟨h2.1, ?_, (at_block ..).2 h2.2.2⟩
      rw [h2.2.1, ← pre_congr (agree_setIt st l 0)]
theorem startFrom_spec : (bs : List (Vec α)) → (l : Nat) → (st : St) → (i : Nat) → st.it l = i →
    Result l st (AtFrom i bs l) (pathsFrom i bs) (startFrom bs l st)
  | [], l, st, i, _ => by
    simp only [pathsFrom, startFrom]
    exact ⟨Agree.refl _ _, rfl⟩
  | b :: bs, l, st, i, hi => by
    obtain ⟨h1, h2⟩ := start_spec b (l + 1) st
    simp only [pathsFrom, startFrom]
    cases hp : paths b with
    | nil =>
      rw [hp] at h2
      have hb : start b (l + 1) st = (false, (start b (l + 1) st).2) := by rw [← h2]
      rw [hb]
      dsimp only
      have hit : (start b (l + 1) st).2.it l = i := by rw [← h1.1 l (by omega), hi]
      rw [hit]
      obtain ⟨h3, h4⟩ := startFrom_spec bs l ((start b (l + 1) st).2.setIt l (i + 1)) (i + 1) (setIt_it ..)
      have hag : Agree l st ((start b (l + 1) st).2.setIt l (i + 1)) := (h1.mono (by omega)).trans (agree_setIt _ l _)
      refine ⟨hag.trans h3, ?_⟩
      rw [List.map_nil, List.nil_append]
      cases hq : pathsFrom (i + 1) bs with
      | nil => rw [hq] at h4; exact h4
      | cons p r =>
        rw [hq] at h4
        refine ⟨h4.1, by rw [h4.2.1, pre_congr hag], ?_⟩
        obtain ⟨j, b', p', r', e1, e2, e3, e4, e5⟩ := h4.2.2
        refine ⟨j + 1, b', p', r', by omega, ?_, by simpa using e3, e4, ?_⟩
        · rw [e2]; congr 1; omega
        · rw [e5, show i + 1 + j = i + (j + 1) by omega]; simp
    | cons p r =>
      rw [hp] at h2
      have hb : start b (l + 1) st = (true, (start b (l + 1) st).2) := by rw [← h2.1]
      rw [hb]
      refine ⟨h1.mono (by omega), ?_⟩
      rw [List.map_cons, List.cons_append]
      refine ⟨rfl, ?_, ?_⟩
      · rw [h2.2.1, pre_succ, hi]; simp
      · exact ⟨0, b, p, r, by rw [← h1.1 l (by omega), hi]; rfl, rfl, rfl, h2.2.2, by simp⟩
end

mutual
theorem advance_spec : (v : Vec α) → (l : Nat) → (st : St) → (p : List Nat) → (r : List (List Nat)) → At v l st p r →
    ∃ res, advance v l st = some res ∧ Result l st (At v l) r res
  | .one x, l, st, p, r, h => by
    rw [At] at h
    rw [h.2]
    exact ⟨(false, st), by simp only [advance], Agree.refl _ _, rfl⟩
  | .leaf xs, l, st, p, r, h => by
    rw [At] at h
    obtain ⟨h1, _, h3⟩ := h
    simp only [advance, setIt_it]
    by_cases he : st.it l + 1 = xs.length
    · rw [if_pos he]
      refine ⟨_, rfl, agree_setIt _ _ _, ?_⟩
      rw [h3, he]; simp
    · rw [if_neg he]
      refine ⟨_, rfl, (agree_setIt st l _).trans (agree_current _ l _), ?_⟩
      rw [h3, show xs.length - (st.it l + 1) = (xs.length - (st.it l + 1 + 1)) + 1 by omega, List.range'_succ, List.map_cons]
      refine ⟨rfl, ?_, ?_⟩
      · show some _ = _
        rw [pre_succ, setIt_it, ← pre_congr (agree_setIt st l (st.it l + 1))]
      · rw [At]
        refine ⟨?_, ?_, ?_⟩
        · show (st.setIt l (st.it l + 1)).it l < _
          rw [setIt_it]; omega
        · show _ = [(st.setIt l (st.it l + 1)).it l]
          rw [setIt_it]
        · show _ = List.map _ (List.range' ((st.setIt l (st.it l + 1)).it l + 1) (xs.length - ((st.setIt l (st.it l + 1)).it l + 1)))
          rw [setIt_it]
  | .block bs, l, st, p, r, h => by
    rw [at_block] at h
    obtain ⟨j, b, p', r', e1, e2, e3, e4, e5⟩ := h
    rw [Nat.zero_add] at e1 e2 e5
    obtain ⟨res, h1, h2, h3⟩ := advanceAt_spec bs l st 0 j b p' r' (by omega) e3 e4
    rw [Nat.zero_add] at h3
    refine ⟨res, by simp only [advance]; rw [e1]; exact h1, h2, ?_⟩
    rw [e5]
    cases hr : r'.map (j :: ·) ++ pathsFrom (j + 1) (bs.drop (j + 1)) with
    | nil => rw [hr] at h3; exact h3
    | cons q s => rw [hr] at h3; exact ⟨h3.1, h3.2.1, (at_block ..).2 h3.2.2⟩
theorem advanceAt_spec : (bs : List (Vec α)) → (l : Nat) → (st : St) → (i j : Nat) → (b : Vec α) → (p' : List Nat) →
    (r' : List (List Nat)) → st.it l = i + j → bs[j]? = some b → At b (l + 1) st p' r' →
    ∃ res, advanceAt bs j l st = some res ∧
      Result l st (AtFrom i bs l) (r'.map ((i + j) :: ·) ++ pathsFrom (i + j + 1) (bs.drop (j + 1))) res
  | [], l, st, i, j, b, p', r', _, hb, _ => by simp at hb
  | c :: bs, l, st, i, 0, b, p', r', hi, hb, hat => by
    obtain rfl : c = b := by simpa using hb
    obtain ⟨⟨ok, st'⟩, h1, h2, h3⟩ := advance_spec c (l + 1) st p' r' hat
    simp only [advanceAt, h1]
    rw [Nat.add_zero] at hi ⊢
    rw [Nat.zero_add, List.drop_one, List.tail_cons]
    have hit : st'.it l = i := by rw [← h2.1 l (by omega), hi]
    cases r' with
    | nil =>
      dsimp only at h3
      subst h3
      dsimp only
      rw [hit]
      obtain ⟨h4, h5⟩ := startFrom_spec bs l (st'.setIt l (i + 1)) (i + 1) (setIt_it ..)
      have hag : Agree l st (st'.setIt l (i + 1)) := (h2.mono (by omega)).trans (agree_setIt _ l _)
      refine ⟨_, rfl, hag.trans h4, ?_⟩
      rw [List.map_nil, List.nil_append]
      cases hq : pathsFrom (i + 1) bs with
      | nil => rw [hq] at h5; exact h5
      | cons p r =>
        rw [hq] at h5
        refine ⟨h5.1, by rw [h5.2.1, pre_congr hag], ?_⟩
        obtain ⟨j, b', p', r', e1, e2, e3, e4, e5⟩ := h5.2.2
        refine ⟨j + 1, b', p', r', by omega, ?_, by simpa using e3, e4, ?_⟩
        · rw [e2]; congr 1; omega
        · rw [e5, show i + 1 + j = i + (j + 1) by omega]; simp
    | cons q s =>
      obtain ⟨h3, h4, h5⟩ := h3
      dsimp only at h3
      subst h3
      refine ⟨_, rfl, h2.mono (by omega), ?_⟩
      rw [List.map_cons, List.cons_append]
      refine ⟨rfl, ?_, ?_⟩
      · show st'.current = _
        rw [h4, pre_succ, hi]; simp
      · exact ⟨0, c, q, s, by rw [hit]; rfl, rfl, rfl, h5, by simp⟩
  | c :: bs, l, st, i, j + 1, b, p', r', hi, hb, hat => by
    obtain ⟨res, h1, h2, h3⟩ := advanceAt_spec bs l st (i + 1) j b p' r' (by omega) (by simpa using hb) hat
    refine ⟨res, by simp only [advanceAt]; exact h1, h2, ?_⟩
    rw [show i + 1 + j = i + (j + 1) by omega] at h3
    rw [List.drop_succ_cons]
    cases hr : r'.map ((i + (j + 1)) :: ·) ++ pathsFrom (i + (j + 1) + 1) (bs.drop (j + 1)) with
    | nil => rw [hr] at h3; exact h3
    | cons q s =>
      rw [hr] at h3
      refine ⟨h3.1, h3.2.1, ?_⟩
      obtain ⟨j', b', p'', r'', e1, e2, e3, e4, e5⟩ := h3.2.2
      refine ⟨j' + 1, b', p'', r'', by omega, ?_, by simpa using e3, e4, ?_⟩
      · rw [e2]; congr 1; omega
      · rw [e5, show i + 1 + j' = i + (j' + 1) by omega]; simp
end

/-! ### The paths are the valid ones, in order -/

mutual
theorem mem_paths : (v : Vec α) → (p : List Nat) → p ∈ paths v ↔ (entry v p).isSome
  | .one x, p => by
    simp only [paths, List.mem_singleton]
    constructor
    · rintro rfl; simp [entry]
    · intro h
      match p, h with
      | [], h => simp [entry] at h
      | [0], _ => rfl
      | [k + 1], h => simp [entry] at h
      | a :: b :: q, h => simp [entry] at h
  | .leaf xs, p => by
    simp only [paths, List.mem_map, List.mem_range]
    constructor
    · rintro ⟨i, hi, rfl⟩; simp [entry, hi]
    · intro h
      match p, h with
      | [], h => simp [entry] at h
      | [i], h => exact ⟨i, by simpa [entry] using h, rfl⟩
      | a :: b :: q, h => simp [entry] at h
  | .block bs, p => by
    simp only [paths]
    rw [mem_pathsFrom bs 0 p]
    cases p with
    | nil => simp [entry]
    | cons i q =>
      rw [entry]
      constructor
      · rintro ⟨j, b, q', hb, hq, h⟩
        rw [Nat.zero_add] at hq
        cases hq
        rw [hb]; exact h
      · intro h
        cases hb : bs[i]? with
        | none => rw [hb] at h; simp at h
        | some b => rw [hb] at h; exact ⟨i, b, q, hb, by simp, h⟩
theorem mem_pathsFrom : (bs : List (Vec α)) → (i : Nat) → (p : List Nat) →
    (p ∈ pathsFrom i bs ↔ ∃ j b q, bs[j]? = some b ∧ p = (i + j) :: q ∧ (entry b q).isSome)
  | [], i, p => by simp [pathsFrom]
  | b :: bs, i, p => by
    simp only [pathsFrom, List.mem_append, List.mem_map]
    rw [mem_pathsFrom bs (i + 1) p]
    constructor
    · rintro (⟨q, hq, rfl⟩ | ⟨j, b', q, h1, h2, h3⟩)
      · exact ⟨0, b, q, rfl, rfl, (mem_paths b q).1 hq⟩
      · exact ⟨j + 1, b', q, by simpa using h1, by rw [h2]; congr 1; omega, h3⟩
    · rintro ⟨j, b', q, h1, h2, h3⟩
      cases j with
      | zero =>
        obtain rfl : b = b' := by simpa using h1
        exact Or.inl ⟨q, (mem_paths b q).2 h3, h2.symm⟩
      | succ j => exact Or.inr ⟨j, b', q, by simpa using h1, by rw [h2]; congr 1; omega, h3⟩
end

mutual
theorem sorted_paths : (v : Vec α) → (paths v).Pairwise lexLt
  | .one x => by simp [paths]
  | .leaf xs => by
    simp only [paths]
    rw [List.pairwise_map]
    refine List.pairwise_lt_range.imp ?_
    intro a b h
    exact Or.inl h
  | .block bs => by
    simp only [paths]
    exact sorted_pathsFrom bs 0
theorem sorted_pathsFrom : (bs : List (Vec α)) → (i : Nat) → (pathsFrom i bs).Pairwise lexLt
  | [], i => by simp [pathsFrom]
  | b :: bs, i => by
    simp only [pathsFrom]
    rw [List.pairwise_append]
    refine ⟨?_, sorted_pathsFrom bs (i + 1), ?_⟩
    · rw [List.pairwise_map]
      exact (sorted_paths b).imp fun h => Or.inr ⟨rfl, h⟩
    · intro p hp q hq
      obtain ⟨p', _, rfl⟩ := List.mem_map.1 hp
      obtain ⟨j, b', q', _, rfl, _⟩ := (mem_pathsFrom bs (i + 1) q).1 hq
      exact Or.inl (by omega)
end

theorem lexLt_irrefl (p : List Nat) : ¬ lexLt p p := by
  induction p with
  | nil => exact id
  | cons i p ih =>
    rintro (h | ⟨_, h⟩)
    · omega
    · exact ih h

/-- Traversal from a state standing at `p` visits `p` and everything that is still to come. -/
theorem traverse_from (v : Vec α) (fuel : Nat) (st : St) (p : List Nat) (r : List (List Nat)) (hat : At v 0 st p r)
    (hcur : st.current = some p) (hend : st.atEnd = false) (hf : r.length + 2 ≤ fuel) : traverse v fuel st = some (p :: r) := by
  induction r generalizing fuel st p with
  | nil =>
    obtain ⟨n, rfl⟩ : ∃ n, fuel = n + 2 := ⟨fuel - 2, by simp at hf; omega⟩
    obtain ⟨⟨ok, st'⟩, h1, h2, h3⟩ := advance_spec v 0 st p [] hat
    dsimp only at h3
    subst h3
    have hinc : increment v st = some { st' with atEnd := true } := by
      unfold increment
      rw [if_neg (by simp [hend]), h1]
    have heq : equals st (construct v true) = false := by simp [equals, hend, construct]
    have heq' : equals { st' with atEnd := true } (construct v true) = true := by simp [equals, construct]
    simp only [traverse, heq, hcur, hinc, heq', if_true]
    rfl
  | cons q s ih =>
    obtain ⟨n, rfl⟩ : ∃ n, fuel = n + 1 := ⟨fuel - 1, by omega⟩
    obtain ⟨⟨ok, st'⟩, h1, h2, h3, h4, h5⟩ := advance_spec v 0 st p (q :: s) hat
    dsimp only at h3
    subst h3
    have hinc : increment v st = some st' := by
      unfold increment
      rw [if_neg (by simp [hend]), h1]
    have heq : equals st (construct v true) = false := by simp [equals, hend, construct]
    have := ih n st' q h5 (by rw [h4]; simp [St.pre]) (by rw [← h2.2]; exact hend) (by simp at hf; omega)
    simp only [traverse, heq, hcur, hinc, this]
    rfl

theorem traverse_paths (v : Vec α) (fuel : Nat) (hf : (paths v).length + 1 ≤ fuel) :
    traverse v fuel (construct v false) = some (paths v) := by
  obtain ⟨h1, h2⟩ := start_spec v 0 ⟨fun _ => 0, none, false⟩
  unfold construct
  dsimp only
  rw [if_neg (by simp)]
  cases hs : start v 0 ⟨fun _ => 0, none, false⟩ with
  | mk ok st =>
    rw [hs] at h1 h2
    cases hp : paths v with
    | nil =>
      rw [hp] at h2
      dsimp only at h2
      subst h2
      obtain ⟨n, rfl⟩ : ∃ n, fuel = n + 1 := ⟨fuel - 1, by omega⟩
      dsimp only
      simp [traverse, equals, construct]
    | cons p r =>
      rw [hp] at h2 hf
      obtain ⟨h2, h3, h4⟩ := h2
      dsimp only at h2
      subst h2
      exact traverse_from v fuel st p r h4 (by rw [h3]; simp [St.pre]) h1.2.symm (by simp at hf; omega)

end Verif.VectorIterator
