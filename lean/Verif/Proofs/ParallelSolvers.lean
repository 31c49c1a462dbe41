import Verif.Spec.ParallelSolvers
import Verif.Proofs.ParallelHelper
import Mathlib.Algebra.BigOperators.Ring.Finset
/-
Helper lemmas for the parallel solver backends (C136-C144).
-/
namespace Verif.ParallelSolvers

open Verif.ParallelHelper Verif.ParallelHelper.Spec Verif.ParallelSolvers.Spec

/-! ### Scattering -/

section
variable {V : Type}

theorem scatterAdd_other [Add V] (dofs : List Nat) : ∀ (vals : List V) (v : Nat → V) (j : Nat), j ∉ dofs → scatterAdd v dofs vals j = v j := by
  induction dofs with
  | nil => intro vals v j _; rfl
  | cons a l ih =>
    intro vals v j hj
    cases vals with
    | nil => rfl
    | cons b vals =>
      rw [List.mem_cons, not_or] at hj
      have := ih vals (fun j => if j = a then v j + b else v j) j hj.2
      unfold scatterAdd at this ⊢
      rw [List.zip_cons_cons, List.foldl_cons]
      rw [this, if_neg hj.1]

theorem scatterAdd_at [Add V] (dofs : List Nat) : ∀ (vals : List V) (v : Nat → V) (j k : Nat) (a : V), dofs.Nodup → dofs[k]? = some j →
    vals[k]? = some a → scatterAdd v dofs vals j = v j + a := by
  induction dofs with
  | nil => intro vals v j k a _ h; simp at h
  | cons d l ih =>
    intro vals v j k a hnd hk ha
    rw [List.nodup_cons] at hnd
    cases vals with
    | nil => simp at ha
    | cons b vals =>
      cases k with
      | zero =>
        have hd : d = j := by simpa using hk
        have hb : b = a := by simpa using ha
        subst hd hb
        have := scatterAdd_other l vals (fun j => if j = d then v j + b else v j) d hnd.1
        unfold scatterAdd at this ⊢
        rw [List.zip_cons_cons, List.foldl_cons, this, if_pos rfl]
      | succ k =>
        have hk : l[k]? = some j := by simpa using hk
        have ha : vals[k]? = some a := by simpa using ha
        have hne : j ≠ d := fun h => hnd.1 (h ▸ List.mem_of_getElem? hk)
        have := ih vals (fun j => if j = d then v j + b else v j) j k a hnd.2 hk ha
        unfold scatterAdd at this ⊢
        rw [List.zip_cons_cons, List.foldl_cons, this, if_neg hne]

theorem scatterCopy_other (dofs : List Nat) : ∀ (vals : List V) (v : Nat → V) (j : Nat), j ∉ dofs → scatterCopy v dofs vals j = v j := by
  induction dofs with
  | nil => intro vals v j _; rfl
  | cons a l ih =>
    intro vals v j hj
    cases vals with
    | nil => rfl
    | cons b vals =>
      rw [List.mem_cons, not_or] at hj
      have := ih vals (fun j => if j = a then b else v j) j hj.2
      unfold scatterCopy at this ⊢
      rw [List.zip_cons_cons, List.foldl_cons]
      rw [this, if_neg hj.1]

theorem scatterCopy_at (dofs : List Nat) : ∀ (vals : List V) (v : Nat → V) (j k : Nat) (a : V), dofs.Nodup → dofs[k]? = some j →
    vals[k]? = some a → scatterCopy v dofs vals j = a := by
  induction dofs with
  | nil => intro vals v j k a _ h; simp at h
  | cons d l ih =>
    intro vals v j k a hnd hk ha
    rw [List.nodup_cons] at hnd
    cases vals with
    | nil => simp at ha
    | cons b vals =>
      cases k with
      | zero =>
        have hd : d = j := by simpa using hk
        have hb : b = a := by simpa using ha
        subst hd hb
        have := scatterCopy_other l vals (fun j => if j = d then b else v j) d hnd.1
        unfold scatterCopy at this ⊢
        rw [List.zip_cons_cons, List.foldl_cons, this, if_pos rfl]
      | succ k =>
        have hk : l[k]? = some j := by simpa using hk
        have ha : vals[k]? = some a := by simpa using ha
        have := ih vals (fun j => if j = d then b else v j) j k a hnd.2 hk ha
        unfold scatterCopy at this ⊢
        rw [List.zip_cons_cons, List.foldl_cons, this]

/-- The state after delivery of a message that causes no exception. -/
def after (sc : (Nat → V) → List Nat → List V → Nat → V) (x s : Vecs V) (m : Message) : Vecs V := fun p =>
  if p = m.dst then sc (s p) m.received.dofs (m.sent.dofs.map (x m.src)) else s p

/-- No message causes an exception. -/
def Fits (msgs : List Message) : Prop := ∀ m ∈ msgs, m.received.dofs = [] ∨ m.received.dofs.length = m.sent.dofs.length

theorem communicate_eq (sc : (Nat → V) → List Nat → List V → Nat → V) (hsc : ∀ v vals, sc v [] vals = v) (x : Vecs V) (msgs : List Message)
    (h : Fits msgs) : ∀ s, msgs.foldlM (deliver sc x) s = some (msgs.foldl (after sc x) s) := by
  induction msgs with
  | nil => intro s; rfl
  | cons m ms ih =>
    intro s
    have hd : deliver sc x s m = some (after sc x s m) := by
      unfold deliver after
      by_cases he : m.received.dofs = []
      · simp only [he, if_true, hsc]
        congr 1
        funext p
        split <;> rfl
      · rcases h m List.mem_cons_self with h | h
        · exact absurd h he
        · simp only [he, if_false, List.length_map, h, if_true]
    rw [List.foldlM_cons, hd]
    exact ih (fun m' hm' => h m' (List.mem_cons_of_mem _ hm')) _

end

/-! ### Positions -/

section
variable {L : Layout} {ents : List Nat} {ndof : Nat → Nat} {ib : Bool}

theorem pos_eq (hv : Valid L ents ndof ib) {f : Copy → Bool} {p : Nat} (hp : p < L.procs) {c : Copy} (hc : c ∈ L.copies p) (hf : f c = true) (k : Nat) :
    pos L f p c.ent k = c.dofs[k]? := by
  unfold pos
  cases hfind : (L.copies p).find? fun c' => f c' && c'.ent == c.ent with
  | none =>
    rw [List.find?_eq_none] at hfind
    exact absurd (hfind c hc) (by simp [hf])
  | some c' =>
    have h1 := List.find?_some hfind
    have h2 := List.mem_of_find?_eq_some hfind
    simp only [Bool.and_eq_true, beq_iff_eq] at h1
    rw [ent_unique (hv.once p hp) h2 hc h1.2]
    rfl

theorem of_pos {f : Copy → Bool} {p e k i : Nat} (h : pos L f p e k = some i) : ∃ c ∈ L.copies p, f c = true ∧ c.ent = e ∧ c.dofs[k]? = some i := by
  unfold pos at h
  cases hfind : (L.copies p).find? fun c' => f c' && c'.ent == e with
  | none => rw [hfind] at h; cases h
  | some c' =>
    rw [hfind] at h
    have h1 := List.find?_some hfind
    have h2 := List.mem_of_find?_eq_some hfind
    simp only [Bool.and_eq_true, beq_iff_eq] at h1
    exact ⟨c', h2, h1.1, h1.2, h⟩

theorem ndof_of_pos (hv : Valid L ents ndof ib) {f : Copy → Bool} {p e k i : Nat} (hp : p < L.procs) (h : pos L f p e k = some i) :
    e ∈ ents ∧ k < ndof e := by
  obtain ⟨c, hc, _, rfl, hk⟩ := of_pos h
  refine ⟨hv.known p hp c hc, ?_⟩
  have hlt : k < c.dofs.length := (List.getElem?_eq_some_iff.1 hk).1
  rcases hv.dofs p hp c hc with h | h
  · omega
  · rw [h.2] at hlt; simp at hlt

theorem pos_inj (hv : Valid L ents ndof ib) {f : Copy → Bool} {p e k e' k' i : Nat} (hp : p < L.procs) (h : pos L f p e k = some i)
    (h' : pos L f p e' k' = some i) : e = e' ∧ k = k' := by
  obtain ⟨c, hc, _, rfl, hk⟩ := of_pos h
  obtain ⟨c', hc', _, rfl, hk'⟩ := of_pos h'
  have hcc := unique_of_mem (dofs_nodup hv hp) hc hc' (List.mem_of_getElem? hk) (List.mem_of_getElem? hk')
  subst hcc
  refine ⟨rfl, ?_⟩
  have hnd := nodup_of_mem (dofs_nodup hv hp) hc
  obtain ⟨h1, h2⟩ := List.getElem?_eq_some_iff.1 hk
  obtain ⟨h1', h2'⟩ := List.getElem?_eq_some_iff.1 hk'
  exact (List.Nodup.getElem_inj_iff hnd).1 (h2.trans h2'.symm)

theorem pos_lt_size (hv : Valid L ents ndof ib) {f : Copy → Bool} {p e k i : Nat} (hp : p < L.procs) (h : pos L f p e k = some i) :
    i < L.size p := by
  obtain ⟨c, hc, _, rfl, hk⟩ := of_pos h
  exact pos_lt hv hp hc (List.mem_of_getElem? hk)

theorem exists_pos (hv : Valid L ents ndof ib) {p i : Nat} (hp : p < L.procs) (hi : i < L.size p) :
    ∃ c ∈ L.copies p, ∃ k : Nat, c.dofs[k]? = some i := by
  obtain ⟨c, hc, hic⟩ := List.mem_flatMap.1 ((hv.positions p hp).mem_iff.2 (List.mem_range.2 hi))
  exact ⟨c, hc, List.mem_iff_getElem?.1 hic⟩

/-- A sum over the entries of a process as a sum over all DOFs. -/
theorem sum_positions {V : Type} [AddCommMonoid V] (hv : Valid L ents ndof ib) {p : Nat} (hp : p < L.procs) (h : Nat → V) :
    ∑ i ∈ Finset.range (L.size p), h i = sumDofs ents ndof fun e k => (pos L all p e k).elim 0 h := by
  classical
  unfold sumDofs
  rw [Finset.sum_sigma' ents.toFinset (fun e => Finset.range (ndof e)) (fun e k => (pos L all p e k).elim 0 h)]
  symm
  rw [← Finset.sum_filter_of_ne (p := fun q : (_ : Nat) × Nat => (pos L all p q.1 q.2).isSome) (by
    intro q _ hne
    cases hq : pos L all p q.1 q.2 with
    | none => rw [hq] at hne; exact absurd rfl hne
    | some _ => rfl)]
  refine Finset.sum_bij (fun q hq => (pos L all p q.1 q.2).get (Finset.mem_filter.1 hq).2) ?_ ?_ ?_ ?_
  · intro q hq
    rw [Finset.mem_range]
    exact pos_lt_size (f := all) (e := q.1) (k := q.2) hv hp (Option.some_get _).symm
  · intro q hq q' hq' heq
    have h1 : pos L all p q.1 q.2 = some ((pos L all p q.1 q.2).get (Finset.mem_filter.1 hq).2) := (Option.some_get _).symm
    have h2 : pos L all p q'.1 q'.2 = some ((pos L all p q'.1 q'.2).get (Finset.mem_filter.1 hq').2) := (Option.some_get _).symm
    rw [← heq] at h2
    obtain ⟨a, b⟩ := pos_inj hv hp h1 h2
    obtain ⟨e, k⟩ := q
    obtain ⟨e', k'⟩ := q'
    cases a; cases b; rfl
  · intro i hi
    rw [Finset.mem_range] at hi
    obtain ⟨c, hc, k, hk⟩ := exists_pos hv hp hi
    have hpos : pos L all p c.ent k = some i := by rw [pos_eq hv hp hc rfl k, hk]
    obtain ⟨h1, h2⟩ := ndof_of_pos hv hp hpos
    refine ⟨⟨c.ent, k⟩, ?_, ?_⟩
    · simp [h1, h2, hpos]
    · simp [hpos]
  · intro q hq
    have hs := (Finset.mem_filter.1 hq).2
    obtain ⟨i, hi⟩ := Option.isSome_iff_exists.1 hs
    simp [hi]

end

/-! ### Adding up -/

section
variable {V : Type} [AddCommMonoid V] {L : Layout} {ents : List Nat} {ndof : Nat → Nat} {ib : Bool}

/-- What a message adds to the DOF `k` of copy `c` on process `p`. -/
def added (x : Vecs V) (p : Nat) (c : Copy) (k : Nat) (m : Message) : V :=
  if m.dst = p ∧ m.received = c then (m.sent.dofs[k]?).elim 0 (x m.src) else 0

theorem foldl_after (hv : Valid L ents ndof ib) (x : Vecs V) {p : Nat} (hp : p < L.procs) {c : Copy} (hc : c ∈ L.copies p) {k i : Nat}
    (hk : c.dofs[k]? = some i) (msgs : List Message) (hfit : Fits msgs) (hmem : ∀ m ∈ msgs, m.dst = p → m.received ∈ L.copies p) :
    ∀ s : Vecs V, msgs.foldl (after scatterAdd x) s p i = s p i + (msgs.map (added x p c k)).sum := by
  induction msgs with
  | nil => intro s; simp
  | cons m ms ih =>
    intro s
    rw [List.foldl_cons, ih (fun m' h => hfit m' (List.mem_cons_of_mem _ h)) (fun m' h => hmem m' (List.mem_cons_of_mem _ h)), List.map_cons, List.sum_cons]
    rw [← add_assoc]
    congr 1
    unfold after added
    by_cases hd : m.dst = p
    · have hr := hmem m List.mem_cons_self hd
      rw [if_pos hd.symm]
      by_cases hrc : m.received = c
      · rw [if_pos ⟨hd, hrc⟩, hrc]
        have hlen : c.dofs.length = m.sent.dofs.length := by
          rcases hfit m List.mem_cons_self with h | h
          · rw [hrc] at h; rw [h] at hk; simp at hk
          · rw [← hrc]; exact h
        have hlt : k < m.sent.dofs.length := by rw [← hlen]; exact (List.getElem?_eq_some_iff.1 hk).1
        rw [List.getElem?_eq_getElem hlt]
        exact scatterAdd_at c.dofs _ _ i k _ (nodup_of_mem (dofs_nodup hv hp) hc) hk (by simp [List.getElem?_eq_getElem hlt])
      · rw [if_neg (fun h => hrc h.2), add_zero]
        refine scatterAdd_other _ _ _ _ ?_
        intro hi
        exact hrc (unique_of_mem (dofs_nodup hv hp) hr hc hi (List.mem_of_getElem? hk))
    · rw [if_neg (fun h => hd h.symm), if_neg (fun h => hd h.1), add_zero]

theorem sum_added (hv : Valid L ents ndof ib) {f g : Copy → Bool} {msgs : List Message} (hm : Exchange L f g msgs) (x : Vecs V) {p : Nat}
    (hp : p < L.procs) {c : Copy} (hc : c ∈ L.copies p) (hg : g c = true) (k : Nat) :
    (msgs.map (added x p c k)).sum = ∑ q ∈ Finset.range L.procs, if q ≠ p then (pos L f q c.ent k).elim 0 (x q) else 0 := by
  classical
  rw [← List.sum_toFinset _ hm.1]
  unfold added
  rw [← Finset.sum_filter, ← Finset.sum_fiberwise_of_maps_to (t := Finset.range L.procs) (g := Message.src) (by
    intro m h
    rw [Finset.mem_filter, List.mem_toFinset] at h
    exact Finset.mem_range.2 ((hm.2 m).1 h.1).1)]
  refine Finset.sum_congr rfl ?_
  intro q hq
  rw [Finset.mem_range] at hq
  by_cases hqp : q = p
  · rw [if_neg (fun h => h hqp)]
    refine Finset.sum_eq_zero ?_
    intro m h
    rw [Finset.mem_filter, Finset.mem_filter, List.mem_toFinset] at h
    obtain ⟨⟨h1, h2, _⟩, h3⟩ := h
    exact absurd (h3.trans (hqp.trans h2.symm)) ((hm.2 m).1 h1).2.2.1
  · rw [if_pos hqp]
    cases hfind : (L.copies q).find? fun c' => f c' && c'.ent == c.ent with
    | none =>
      have hpos : pos L f q c.ent k = none := by unfold pos; rw [hfind]; rfl
      rw [hpos]
      refine Finset.sum_eq_zero ?_
      intro m h
      rw [Finset.mem_filter, Finset.mem_filter, List.mem_toFinset] at h
      obtain ⟨⟨h1, h2, h2'⟩, h3⟩ := h
      obtain ⟨_, _, _, h4, _, h5, h6, _⟩ := (hm.2 m).1 h1
      rw [List.find?_eq_none] at hfind
      rw [h3] at h4
      exact absurd (hfind m.sent h4) (by simp [h6, h5, h2'])
    | some c' =>
      have hpos : pos L f q c.ent k = c'.dofs[k]? := by unfold pos; rw [hfind]; rfl
      have h1 := List.find?_some hfind
      have h2 := List.mem_of_find?_eq_some hfind
      simp only [Bool.and_eq_true, beq_iff_eq] at h1
      rw [hpos, Finset.sum_eq_single (⟨q, p, c', c⟩ : Message)]
      · intro m h hne
        rw [Finset.mem_filter, Finset.mem_filter, List.mem_toFinset] at h
        obtain ⟨⟨a1, a2, a2'⟩, a3⟩ := h
        obtain ⟨_, _, _, a4, _, a5, a6, _⟩ := (hm.2 m).1 a1
        exfalso
        apply hne
        obtain ⟨src, dst, sent, received⟩ := m
        dsimp only at a2 a2' a3 a4 a5
        subst a2 a2' a3
        rw [ent_unique (hv.once _ hq) a4 h2 (a5.trans h1.2.symm)]
      · intro h
        exfalso
        apply h
        rw [Finset.mem_filter, Finset.mem_filter, List.mem_toFinset]
        exact ⟨⟨(hm.2 _).2 ⟨hq, hp, hqp, h2, hc, h1.2, h1.1, hg⟩, rfl, rfl⟩, rfl⟩

/-- The result of adding up: every receiving copy gets the values of all sending copies on other processes. -/
theorem communicate_add (hv : Valid L ents ndof ib) {f g : Copy → Bool} {msgs : List Message} (hm : Exchange L f g msgs) (hfit : Fits msgs) (x : Vecs V) :
    ∃ y, communicate scatterAdd msgs x = some y ∧ ∀ p, p < L.procs → ∀ c ∈ L.copies p, g c = true → ∀ k i, c.dofs[k]? = some i →
      y p i = x p i + ∑ q ∈ Finset.range L.procs, if q ≠ p then (pos L f q c.ent k).elim 0 (x q) else 0 := by
  refine ⟨_, communicate_eq scatterAdd (fun _ _ => rfl) x msgs hfit x, ?_⟩
  intro p hp c hc hg k i hk
  rw [foldl_after hv x hp hc hk msgs hfit (by
    intro m h hd
    rw [← hd]
    exact ((hm.2 m).1 h).2.2.2.2.1) x, sum_added hv hm x hp hc hg k]

theorem total_split (hv : Valid L ents ndof ib) {f : Copy → Bool} (x : Vecs V) {p : Nat} (hp : p < L.procs) {c : Copy} (hc : c ∈ L.copies p)
    (hf : f c = true) {k i : Nat} (hk : c.dofs[k]? = some i) :
    x p i + (∑ q ∈ Finset.range L.procs, if q ≠ p then (pos L f q c.ent k).elim 0 (x q) else 0) = total L f x c.ent k := by
  unfold total
  rw [← Finset.add_sum_erase (Finset.range L.procs) (fun q => (pos L f q c.ent k).elim 0 (x q)) (Finset.mem_range.2 hp)]
  rw [pos_eq hv hp hc hf k, hk]
  congr 1
  rw [← Finset.sum_erase (Finset.range L.procs) (f := fun q => if q ≠ p then (pos L f q c.ent k).elim 0 (x q) else 0) (a := p) (by simp)]
  refine Finset.sum_congr rfl ?_
  intro q hq
  rw [if_pos (Finset.ne_of_mem_erase hq)]

theorem fits_ib (hv : Valid L ents ndof ib) {g : Copy → Bool} {msgs : List Message} (hm : Exchange L Copy.ib g msgs) : Fits msgs := by
  intro m h
  obtain ⟨h1, h2, _, h4, h5, h6, h7, _⟩ := (hm.2 m).1 h
  rcases hv.dofs _ h2 _ h5 with h | h
  · right
    rcases hv.dofs _ h1 _ h4 with h' | h'
    · rw [h, h', h6]
    · rw [h'.1] at h7; cases h7
  · exact Or.inl h.2

theorem fits_full (hfull : Full L ndof) {f g : Copy → Bool} {msgs : List Message} (hm : Exchange L f g msgs) : Fits msgs := by
  intro m h
  obtain ⟨h1, h2, _, h4, h5, h6, _⟩ := (hm.2 m).1 h
  right
  rw [hfull _ h1 _ h4, hfull _ h2 _ h5, h6]

/-- Adding up between copies with `f` makes the vectors consistent. -/
theorem communicate_total (hv : Valid L ents ndof ib) {f : Copy → Bool} {msgs : List Message} (hm : Exchange L f f msgs) (hfit : Fits msgs) (x : Vecs V) :
    ∃ y, communicate scatterAdd msgs x = some y ∧ ConsistentOn L f y (total L f x) := by
  obtain ⟨y, h1, h2⟩ := communicate_add hv hm hfit x
  refine ⟨y, h1, ?_⟩
  intro p hp c hc hf k i hk
  rw [h2 p hp c hc hf k i hk, total_split hv x hp hc hf hk]

theorem addUp_total (hv : Valid L ents ndof ib) {f : Copy → Bool} {msgs : List Message} (hm : Exchange L f f msgs) (hfit : Fits msgs) (x : Vecs V) :
    ∃ y, addUp L msgs x = some y ∧ ConsistentOn L f y (total L f x) := by
  unfold addUp
  by_cases h1 : L.procs > 1
  · rw [if_pos h1]; exact communicate_total hv hm hfit x
  · rw [if_neg h1]
    refine ⟨x, rfl, ?_⟩
    intro p hp c hc hf k i hk
    rw [← total_split hv x hp hc hf hk, Finset.sum_eq_zero, add_zero]
    intro q hq
    rw [Finset.mem_range] at hq
    rw [if_neg (by omega)]

end

/-! ### Products -/

section
variable {K : Type} [CommRing K] {L : Layout} {ents : List Nat} {ndof : Nat → Nat} {ib : Bool}

theorem sumDofs_congr {V : Type} [AddCommMonoid V] {h h' : Nat → Nat → V} (H : ∀ e ∈ ents, ∀ k, k < ndof e → h e k = h' e k) :
    sumDofs ents ndof h = sumDofs ents ndof h' := by
  unfold sumDofs
  refine Finset.sum_congr rfl ?_
  intro e he
  refine Finset.sum_congr rfl ?_
  intro k hk
  exact H e (List.mem_toFinset.1 he) k (Finset.mem_range.1 hk)

theorem sumDofs_zero {V : Type} [AddCommMonoid V] : sumDofs ents ndof (fun _ _ => (0 : V)) = 0 := by
  unfold sumDofs
  simp

theorem sumDofs_sum {V : Type} [AddCommMonoid V] (s : Finset Nat) (h : Nat → Nat → Nat → V) :
    sumDofs ents ndof (fun e k => ∑ p ∈ s, h p e k) = ∑ p ∈ s, sumDofs ents ndof (h p) := by
  unfold sumDofs
  simp only [Finset.sum_comm (s := s)]

theorem elim_mul (o : Option Nat) (h : Nat → K) (a : K) : o.elim 0 h * a = o.elim 0 (fun i => h i * a) := by
  cases o <;> simp

/-- The local matrix-vector product as a sum over all DOFs. -/
theorem mv_eq (hv : Valid L ents ndof ib) {f : Copy → Bool} {x : Vecs K} {X : Nat → Nat → K} (hx : ConsistentOn L f x X) {p : Nat} (hp : p < L.procs)
    (a : Nat → K) (ha : ∀ c ∈ L.copies p, f c = false → ∀ j ∈ c.dofs, a j = 0) :
    ∑ j ∈ Finset.range (L.size p), a j * x p j = sumDofs ents ndof fun e k => (pos L f p e k).elim 0 a * X e k := by
  rw [sum_positions hv hp]
  refine sumDofs_congr ?_
  intro e _ k _
  cases hpos : pos L all p e k with
  | none =>
    cases hpos' : pos L f p e k with
    | none => simp
    | some i =>
      obtain ⟨c, hc, _, rfl, hk⟩ := of_pos hpos'
      rw [pos_eq hv hp hc rfl k, hk] at hpos
      cases hpos
  | some i =>
    obtain ⟨c, hc, _, rfl, hk⟩ := of_pos hpos
    cases hf : f c with
    | true =>
      rw [pos_eq hv hp hc hf k, hk]
      simp only [Option.elim]
      rw [hx p hp c hc hf k i hk]
    | false =>
      have : pos L f p c.ent k = none := by
        cases hpos' : pos L f p c.ent k with
        | none => rfl
        | some i =>
          obtain ⟨c', hc', hf', he, _⟩ := of_pos hpos'
          rw [ent_unique (hv.once p hp) hc' hc he, hf] at hf'
          cases hf'
      rw [this]
      simp [ha c hc hf i (List.mem_of_getElem? hk)]

/-- The sum of the local products is the product with the sum of the matrices. -/
theorem total_mv (hv : Valid L ents ndof ib) {f : Copy → Bool} {x : Vecs K} {X : Nat → Nat → K} (hx : ConsistentOn L f x X) (A : Nat → Nat → Nat → K)
    (hA : ∀ p, p < L.procs → ∀ c ∈ L.copies p, f c = false → ∀ j ∈ c.dofs, ∀ i, A p i j = 0) (e k : Nat) :
    total L f (fun p => mv (L.size p) (A p) (x p)) e k = globalMv ents ndof (totalMatrix L f A) X e k := by
  unfold total globalMv totalMatrix
  simp only [Finset.sum_mul]
  rw [sumDofs_sum]
  refine Finset.sum_congr rfl ?_
  intro p hp
  rw [Finset.mem_range] at hp
  cases pos L f p e k with
  | none => simp [sumDofs_zero]
  | some i =>
    simp only [Option.elim]
    unfold mv
    exact mv_eq hv hx hp (A p i) (fun c hc hf j hj => hA p hp c hc hf j hj i)

theorem total_add {V : Type} [AddCommMonoid V] (f : Copy → Bool) (x y : Vecs V) (e k : Nat) :
    total L f (fun p i => x p i + y p i) e k = total L f x e k + total L f y e k := by
  unfold total
  rw [← Finset.sum_add_distrib]
  refine Finset.sum_congr rfl ?_
  intro p _
  cases pos L f p e k <;> simp

theorem total_smul (f : Copy → Bool) (a : K) (x : Vecs K) (e k : Nat) :
    total L f (fun p i => a * x p i) e k = a * total L f x e k := by
  unfold total
  rw [Finset.mul_sum]
  refine Finset.sum_congr rfl ?_
  intro p _
  cases pos L f p e k <;> simp

theorem usmv_eq (n : Nat) (a : K) (A : Nat → Nat → K) (x y : Nat → K) : usmv n a A x y = fun i => y i + a * mv n A x i := by
  funext i
  unfold usmv mv
  rw [Finset.mul_sum]
  congr 1
  refine Finset.sum_congr rfl ?_
  intro j _
  rw [mul_assoc]

theorem zeroConstrained_eq (cc : List Nat) : ∀ (y : Nat → K) (i : Nat), zeroConstrained cc y i = if i ∈ cc then 0 else y i := by
  induction cc with
  | nil => intro y i; simp [zeroConstrained]
  | cons a l ih =>
    intro y i
    have := ih (fun j => if j = a then 0 else y j) i
    unfold zeroConstrained at this ⊢
    rw [List.foldl_cons, this]
    by_cases h : i ∈ l
    · simp [h]
    · by_cases h' : i = a <;> simp [h, h']

/-- A global scalar product with an added up vector is the sum of the local scalar products. -/
theorem pairing (hv : Valid L ents ndof ib) (w : Vecs K) {d : Vecs K} {D : Nat → Nat → K} (hd : ConsistentOn L all d D) :
    sumDofs ents ndof (fun e k => total L all w e k * D e k) = ∑ p ∈ Finset.range L.procs, ∑ i ∈ Finset.range (L.size p), w p i * d p i := by
  unfold total
  simp only [Finset.sum_mul]
  rw [sumDofs_sum]
  refine Finset.sum_congr rfl ?_
  intro p hp
  rw [Finset.mem_range] at hp
  rw [mv_eq hv hd hp (w p) (fun c _ hf => by cases hf)]

/-- The parallel scalar product of vectors that are consistent on interior and border. -/
theorem dot_eq (hv : Valid L ents ndof ib) {rmsgs : List Msg} (hr : Interface L ib rmsgs) {x y : Vecs K} {X Y : Nat → Nat → K}
    (hx : ConsistentOn L Copy.ib x X) (hy : ConsistentOn L Copy.ib y Y) :
    dot L (rankPartition L rmsgs) x y = sumDofs ents ndof fun e k => X e k * Y e k := by
  classical
  unfold dot
  have key : ∀ p ∈ Finset.range L.procs, (∑ i ∈ Finset.range (L.size p), if owned p (rankPartition L rmsgs p) i then x p i * y p i else 0) =
      sumDofs ents ndof (fun e k => if Lowest L e p then X e k * Y e k else 0) := by
    intro p hp
    rw [Finset.mem_range] at hp
    rw [sum_positions hv hp]
    refine sumDofs_congr ?_
    intro e he k hk
    by_cases hl : Lowest L e p
    · rw [if_pos hl]
      obtain ⟨c, hc, rfl, hib⟩ := hl.2.1
      rw [pos_eq hv hp hc rfl k]
      have hlen : c.dofs.length = ndof c.ent := by
        rcases hv.dofs p hp c hc with h | h
        · exact h
        · rw [h.1] at hib; cases hib
      have hk' : k < c.dofs.length := by omega
      rw [List.getElem?_eq_getElem hk']
      simp only [Option.elim]
      obtain ⟨q, hq1, hq2⟩ := rankPartition_eq hv hr hp hc (List.getElem_mem hk')
      rw [lowest_unique hq1 hl] at hq2
      unfold owned
      rw [hq2]
      simp only [beq_self_eq_true, if_true]
      rw [hx p hp c hc hib k _ (List.getElem?_eq_getElem hk'), hy p hp c hc hib k _ (List.getElem?_eq_getElem hk')]
    · rw [if_neg hl]
      cases hpos : pos L all p e k with
      | none => rfl
      | some i =>
        obtain ⟨c, hc, _, rfl, hki⟩ := of_pos hpos
        obtain ⟨q, hq1, hq2⟩ := rankPartition_eq hv hr hp hc (List.mem_of_getElem? hki)
        simp only [Option.elim]
        unfold owned
        rw [hq2, if_neg]
        intro h
        have : q = p := by simpa using h
        exact hl (this ▸ hq1)
  rw [Finset.sum_congr rfl key, ← sumDofs_sum]
  refine sumDofs_congr ?_
  intro e he k _
  obtain ⟨o, ho⟩ := exists_lowest (hv.somewhere e he)
  rw [Finset.sum_eq_single o]
  · rw [if_pos ho]
  · intro q _ hne
    rw [if_neg]
    intro h
    exact hne (lowest_unique h ho)
  · intro h
    exact absurd (Finset.mem_range.2 ho.1) h

end

end Verif.ParallelSolvers
