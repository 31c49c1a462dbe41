import Verif.Spec.AmgIndexSet
import Verif.Proofs.ParallelSolvers
/-
Helper lemmas for the parallel index set (C147).
-/
namespace Verif.AmgIndexSet

open Verif.ParallelHelper Verif.ParallelHelper.Spec Verif.ParallelSolvers Verif.ParallelSolvers.Spec Verif.AmgIndexSet.Spec

/-! ### Counting and numbering -/

theorem countShared_eq (l : List Bool) : countShared l = l.count true := by
  have key : ∀ (l : List Bool) (n : Nat), l.foldl (fun n b => if b then n + 1 else n) n = n + l.count true := by
    intro l
    induction l with
    | nil => intro n; rfl
    | cons b l ih =>
      intro n
      rw [List.foldl_cons, ih]
      cases b
      · rw [List.count_cons_of_ne (by decide)]; rfl
      · rw [List.count_cons_self]
        show n + 1 + l.count true = _
        omega
  unfold countShared
  rw [key]; omega

theorem foldl_add (l : List Nat) : ∀ n, l.foldl (· + ·) n = n + l.foldl (· + ·) 0 := by
  induction l with
  | nil => intro n; rfl
  | cons a l ih => intro n; rw [List.foldl_cons, List.foldl_cons, ih (n + a), ih (0 + a)]; omega

theorem start_zero (flags : Nat → List Bool) : start flags 0 = 0 := rfl

theorem start_succ (flags : Nat → List Bool) (p : Nat) : start flags (p + 1) = start flags p + (flags p).count true := by
  unfold start
  rw [List.range_succ, List.map_append, List.foldl_append, List.map_singleton, List.foldl_cons, List.foldl_nil, countShared_eq]

theorem start_mono (flags : Nat → List Bool) {p q : Nat} (h : p ≤ q) : start flags p ≤ start flags q := by
  induction q, h using Nat.le_induction with
  | base => exact Nat.le_refl _
  | succ q _ ih => rw [start_succ]; omega

theorem numberShared_get (l : List Bool) : ∀ (s i : Nat), (numberShared s l)[i]? = (l[i]?).map fun b => if b then some (s + (l.take i).count true) else none := by
  induction l with
  | nil => intro s i; simp [numberShared]
  | cons b l ih =>
    intro s i
    cases b with
    | false =>
      cases i with
      | zero => simp [numberShared]
      | succ i =>
        simp only [numberShared, List.getElem?_cons_succ, ih, List.take_succ_cons]
        rw [List.count_cons_of_ne (by decide)]
    | true =>
      cases i with
      | zero => simp [numberShared]
      | succ i =>
        simp only [numberShared, List.getElem?_cons_succ, ih, List.take_succ_cons, List.count_cons_self]
        rw [show s + 1 + (l.take i).count true = s + ((l.take i).count true + 1) by omega]

theorem firstIndices_iff (flags : Nat → List Bool) (p i n : Nat) : firstIndices flags p i = some n ↔
    (flags p)[i]? = some true ∧ n = start flags p + ((flags p).take i).count true := by
  unfold firstIndices
  rw [numberShared_get]
  cases h : (flags p)[i]? with
  | none => simp
  | some b => cases b <;> simp [eq_comm]

theorem count_take_lt (l : List Bool) : ∀ {i : Nat}, l[i]? = some true → (l.take i).count true < l.count true := by
  induction l with
  | nil => intro i h; simp at h
  | cons b l ih =>
    intro i h
    cases i with
    | zero =>
      have : b = true := by simpa using h
      subst this
      rw [List.take_zero, List.count_nil, List.count_cons_self]; omega
    | succ i =>
      have h : l[i]? = some true := by simpa using h
      have := ih h
      rw [List.take_succ_cons, List.count_cons, List.count_cons]; omega

theorem count_take_inj (l : List Bool) : ∀ {i j : Nat}, l[i]? = some true → l[j]? = some true → (l.take i).count true = (l.take j).count true → i = j := by
  induction l with
  | nil => intro i j h; simp at h
  | cons b l ih =>
    intro i j hi hj h
    cases i with
    | zero =>
      cases j with
      | zero => rfl
      | succ j =>
        have : b = true := by simpa using hi
        subst this
        rw [List.take_zero, List.count_nil, List.take_succ_cons, List.count_cons_self] at h
        omega
    | succ i =>
      cases j with
      | zero =>
        have : b = true := by simpa using hj
        subst this
        rw [List.take_zero, List.count_nil, List.take_succ_cons, List.count_cons_self] at h
        omega
      | succ j =>
        rw [List.take_succ_cons, List.take_succ_cons, List.count_cons, List.count_cons] at h
        have := @ih i j (by simpa using hi) (by simpa using hj) (by omega)
        rw [this]

theorem count_take_surj (l : List Bool) : ∀ {n : Nat}, n < l.count true → ∃ i, l[i]? = some true ∧ (l.take i).count true = n := by
  induction l with
  | nil => intro n h; simp at h
  | cons b l ih =>
    intro n h
    cases b with
    | false =>
      rw [List.count_cons_of_ne (by decide)] at h
      obtain ⟨i, h1, h2⟩ := ih h
      refine ⟨i + 1, by simpa using h1, ?_⟩
      rw [List.take_succ_cons, List.count_cons_of_ne (by decide), h2]
    | true =>
      rw [List.count_cons_self] at h
      cases n with
      | zero => exact ⟨0, rfl, rfl⟩
      | succ n =>
        obtain ⟨i, h1, h2⟩ := ih (show n < l.count true by omega)
        refine ⟨i + 1, by simpa using h1, ?_⟩
        rw [List.take_succ_cons, List.count_cons_self, h2]

/-- Different blocks get different indices. -/
theorem firstIndices_inj (flags : Nat → List Bool) {p i q j n : Nat} (h : firstIndices flags p i = some n) (h' : firstIndices flags q j = some n) :
    p = q ∧ i = j := by
  rw [firstIndices_iff] at h h'
  obtain ⟨a, rfl⟩ := h
  obtain ⟨a', h'⟩ := h'
  have b := count_take_lt _ a
  have b' := count_take_lt _ a'
  have hpq : p = q := by
    rcases Nat.lt_trichotomy p q with h | h | h
    · have := start_mono flags (show p + 1 ≤ q from h)
      rw [start_succ] at this; omega
    · exact h
    · have := start_mono flags (show q + 1 ≤ p from h)
      rw [start_succ] at this; omega
  subst hpq
  exact ⟨rfl, count_take_inj _ a a' (by omega)⟩

/-- The indices are consecutive. -/
theorem firstIndices_range (flags : Nat → List Bool) (procs n : Nat) : n < start flags procs ↔ ∃ p, p < procs ∧ ∃ i, firstIndices flags p i = some n := by
  constructor
  · intro h
    induction procs with
    | zero => rw [start_zero] at h; omega
    | succ procs ih =>
      rw [start_succ] at h
      by_cases hn : n < start flags procs
      · obtain ⟨p, hp, r⟩ := ih hn
        exact ⟨p, by omega, r⟩
      · obtain ⟨i, h1, h2⟩ := count_take_surj (flags procs) (show n - start flags procs < (flags procs).count true by omega)
        exact ⟨procs, by omega, i, (firstIndices_iff _ _ _ _).2 ⟨h1, by omega⟩⟩
  · rintro ⟨p, hp, i, h⟩
    rw [firstIndices_iff] at h
    have h1 := count_take_lt _ h.1
    have h2 := start_mono flags (show p + 1 ≤ procs from hp)
    rw [start_succ] at h2
    omega

/-! ### Taking minima -/

theorem scatterMin_other (dofs : List Nat) : ∀ (vals : List (Option Nat)) (v : Nat → Option Nat) (j : Nat), j ∉ dofs → scatterMin v dofs vals j = v j := by
  induction dofs with
  | nil => intro vals v j _; rfl
  | cons a l ih =>
    intro vals v j hj
    cases vals with
    | nil => rfl
    | cons b vals =>
      rw [List.mem_cons, not_or] at hj
      have := ih vals (fun j => if j = a then minIndex (v j) b else v j) j hj.2
      unfold scatterMin at this ⊢
      rw [List.zip_cons_cons, List.foldl_cons]
      rw [this, if_neg hj.1]

theorem scatterMin_at (dofs : List Nat) : ∀ (vals : List (Option Nat)) (v : Nat → Option Nat) (j k : Nat) (a : Option Nat), dofs.Nodup → dofs[k]? = some j →
    vals[k]? = some a → scatterMin v dofs vals j = minIndex (v j) a := by
  induction dofs with
  | nil => intro vals v j k a _ h; simp at h
  | cons d l ih =>
    intro vals v j k a hnd hk ha
    rw [List.nodup_cons] at hnd
    cases vals with
    | nil => simp at ha
    | cons b vals =>
      cases k with
      | zero =>
        have hd : d = j := by simpa using hk
        have hb : b = a := by simpa using ha
        subst hd hb
        have := scatterMin_other l vals (fun j => if j = d then minIndex (v j) b else v j) d hnd.1
        unfold scatterMin at this ⊢
        rw [List.zip_cons_cons, List.foldl_cons, this, if_pos rfl]
      | succ k =>
        have hk : l[k]? = some j := by simpa using hk
        have ha : vals[k]? = some a := by simpa using ha
        have hne : j ≠ d := fun h => hnd.1 (h ▸ List.mem_of_getElem? hk)
        have := ih vals (fun j => if j = d then minIndex (v j) b else v j) j k a hnd.2 hk ha
        unfold scatterMin at this ⊢
        rw [List.zip_cons_cons, List.foldl_cons, this, if_neg hne]

variable {L : Layout} {ents : List Nat} {ndof : Nat → Nat} {ib : Bool}

/-- What the DOF `k` of copy `c` on process `p` receives from a message. -/
def got (x : Vecs (Option Nat)) (p : Nat) (c : Copy) (k : Nat) (m : Message) : Option Nat :=
  if m.dst = p ∧ m.received = c then (m.sent.dofs[k]?).elim none (x m.src) else none

/-- If only one index arrives, it is the result. -/
theorem foldl_min (hv : Valid L ents ndof ib) (x : Vecs (Option Nat)) {p : Nat} (hp : p < L.procs) {c : Copy} (hc : c ∈ L.copies p) {k i : Nat}
    (hk : c.dofs[k]? = some i) (n : Nat) (msgs : List Message) (hfit : Fits msgs) (hmem : ∀ m ∈ msgs, m.dst = p → m.received ∈ L.copies p)
    (hn : ∀ m ∈ msgs, got x p c k m = none ∨ got x p c k m = some n) :
    ∀ s : Vecs (Option Nat), s p i = none ∨ s p i = some n →
      ((msgs.foldl (after scatterMin x) s p i = none ∨ msgs.foldl (after scatterMin x) s p i = some n) ∧
        (msgs.foldl (after scatterMin x) s p i = some n ↔ s p i = some n ∨ ∃ m ∈ msgs, got x p c k m = some n)) := by
  induction msgs with
  | nil => intro s hs; simp [hs]
  | cons m ms ih =>
    intro s hs
    have hstep : after scatterMin x s m p i = minIndex (s p i) (got x p c k m) := by
      unfold after got
      by_cases hd : m.dst = p
      · have hr := hmem m List.mem_cons_self hd
        rw [if_pos hd.symm]
        by_cases hrc : m.received = c
        · rw [if_pos ⟨hd, hrc⟩, hrc]
          have hlen : c.dofs.length = m.sent.dofs.length := by
            rcases hfit m List.mem_cons_self with h | h
            · rw [hrc] at h; rw [h] at hk; simp at hk
            · rw [← hrc]; exact h
          have hlt : k < m.sent.dofs.length := by rw [← hlen]; exact (List.getElem?_eq_some_iff.1 hk).1
          rw [List.getElem?_eq_getElem hlt]
          exact scatterMin_at c.dofs _ _ i k _ (nodup_of_mem (dofs_nodup hv hp) hc) hk (by simp [List.getElem?_eq_getElem hlt])
        · rw [if_neg (fun h => hrc h.2)]
          rw [scatterMin_other _ _ _ _ (fun hi => hrc (unique_of_mem (dofs_nodup hv hp) hr hc hi (List.mem_of_getElem? hk)))]
          cases s p i <;> rfl
      · rw [if_neg (fun h => hd h.symm), if_neg (fun h => hd h.1)]
        cases s p i <;> rfl
    have hval : (after scatterMin x s m p i = none ∨ after scatterMin x s m p i = some n) ∧
        (after scatterMin x s m p i = some n ↔ s p i = some n ∨ got x p c k m = some n) := by
      rw [hstep]
      rcases hs with h | h <;> rcases hn m List.mem_cons_self with h' | h' <;> rw [h, h'] <;> simp [minIndex]
    obtain ⟨k1, k2⟩ := ih (fun m' h => hfit m' (List.mem_cons_of_mem _ h)) (fun m' h => hmem m' (List.mem_cons_of_mem _ h))
      (fun m' h => hn m' (List.mem_cons_of_mem _ h)) (after scatterMin x s m) hval.1
    rw [List.foldl_cons]
    refine ⟨k1, ?_⟩
    rw [k2, hval.2]
    simp only [List.mem_cons, exists_eq_or_imp]
    rw [or_assoc]

/-! ### Shared DOFs -/

theorem sharedDofs_iff (hv : Valid L ents ndof ib) {smsgs : List Msg} (hs : AllMessages L ib smsgs) (has : Msg → Bool)
    (hhas : ∀ m ∈ smsgs, has m = true ↔ ∃ c ∈ L.copies m.src, c.ent = m.copy.ent ∧ c.dofs ≠ []) {p : Nat} (hp : p < L.procs) {c : Copy}
    (hc : c ∈ L.copies p) {i : Nat} (hi : i ∈ c.dofs) : (sharedDofs L has smsgs p)[i]?.getD false = true ↔ SharedEntity L c.ent := by
  have hsize := pos_lt hv hp hc hi
  have hne : c.dofs ≠ [] := List.ne_nil_of_mem hi
  have hib : ∀ q, q < L.procs → ∀ c' ∈ L.copies q, c'.dofs ≠ [] → ib = true → c'.ib = true := by
    intro q hq c' hc' hd hib
    cases h : c'.ib with
    | true => rfl
    | false => exact absurd (hv.restricted hib q hq c' hc' h) hd
  unfold sharedDofs
  have hdel : deliverShared has = ParallelHelper.deliver (fun m (old : Bool) => old || has m) := rfl
  rw [hdel, foldl_deliver _ p i c smsgs (by
    intro m hmm hd
    have hmc := ((hs m).1 hmm).2.2.2.1
    rw [hd] at hmc
    exact ⟨nodup_of_mem (dofs_nodup hv hp) hmc, fun h => unique_of_mem (dofs_nodup hv hp) hmc hc h hi, fun h => by rw [h]; exact hi⟩)
    (fun p => List.replicate (L.size p) false) false (by simp [hsize])]
  rw [Option.getD_some, shared_value]
  constructor
  · rintro ⟨m, hmm, hr, hh⟩
    obtain ⟨h1, h2, h3, h4, _, _⟩ := (hs m).1 hmm
    obtain ⟨c', hc', he, hd⟩ := (hhas m hmm).1 hh
    exact ⟨m.src, p, by rw [← hr.1]; exact h3, ⟨h1, c', hc', by rw [he, hr.2], hd⟩, ⟨hp, c, hc, rfl, hne⟩⟩
  · rintro ⟨q, q', hqq, h1, h2⟩
    have : ∃ q, q ≠ p ∧ HasDofs L q c.ent := by
      by_cases h : q = p
      · exact ⟨q', fun h' => hqq (h.trans h'.symm), h2⟩
      · exact ⟨q, h, h1⟩
    obtain ⟨q, hqp, hq, c', hc', he, hd⟩ := this
    have hmm : (⟨q, p, c⟩ : Msg) ∈ smsgs := (hs _).2 ⟨hq, hp, hqp, hc, hib p hp c hc hne, c', hc', he, hib q hq c' hc' hd⟩
    exact ⟨⟨q, p, c⟩, hmm, ⟨rfl, rfl⟩, (hhas _ hmm).2 ⟨c', hc', he, hd⟩⟩

end Verif.AmgIndexSet
