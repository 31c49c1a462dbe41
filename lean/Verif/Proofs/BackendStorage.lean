import Verif.Spec.BackendStorage
import Mathlib.Data.List.Basic

/-!
# Proofs about the storage of vectors
-/

set_option linter.unusedSectionVars false

namespace Verif.BackendStorage

variable {K : Type} [Ring K]

theorem set_self {A : Type} {l : List A} {a : Nat} {x : A} (h : l[a]? = some x) : l.set a x = l := by
  obtain ⟨hl, rfl⟩ := List.getElem?_eq_some_iff.1 h
  exact List.set_getElem_self hl

theorem mapLoop_spec (f : K → K) (a : Nat) : ∀ (fuel i : Nat) (heap : List (List K)) (x : List K),
    heap[a]? = some x → i + fuel = x.length →
    mapLoop f a fuel i heap = some (heap.set a (x.take i ++ (x.drop i).map f))
  | 0, i, heap, x, h, hi => by
    have : i = x.length := by omega
    subst this
    simp [mapLoop, set_self h]
  | fuel + 1, i, heap, x, h, hi => by
    have hil : i < x.length := by omega
    have ha : a < heap.length := (List.getElem?_eq_some_iff.1 h).1
    unfold mapLoop
    rw [h]
    dsimp only
    rw [List.getElem?_eq_getElem hil]
    dsimp only
    rw [mapLoop_spec f a fuel (i + 1) (heap.set a (x.set i (f x[i]))) (x.set i (f x[i]))
      (by rw [List.getElem?_set_self ha]) (by simp; omega)]
    rw [List.set_set]
    congr 2
    rw [List.take_add_one, List.getElem?_set_self hil, List.drop_set_of_lt (by omega)]
    rw [List.drop_eq_getElem_cons hil]
    simp only [List.map_cons, List.take_set_of_le (Nat.le_refl i), Option.toList_some,
      List.append_assoc, List.singleton_append]

theorem transformLoop_spec (f : K → K → K) (a b : Nat) :
    ∀ (fuel i : Nat) (heap : List (List K)) (x y : List K),
    heap[a]? = some x → heap[b]? = some y → i + fuel = x.length →
    transformLoop f a b fuel i heap =
      if x.length ≤ y.length ∨ fuel = 0 then
        some (heap.set a (x.take i ++ List.zipWith f (x.drop i) (y.drop i)))
      else none
  | 0, i, heap, x, y, h, h', hi => by
    have : i = x.length := by omega
    subst this
    simp [transformLoop, set_self h]
  | fuel + 1, i, heap, x, y, h, h', hi => by
    have hil : i < x.length := by omega
    have ha : a < heap.length := (List.getElem?_eq_some_iff.1 h).1
    unfold transformLoop
    rw [h, h']
    dsimp only
    rw [List.getElem?_eq_getElem hil]
    by_cases hiy : i < y.length
    · rw [List.getElem?_eq_getElem hiy]
      dsimp only
      obtain ⟨y', hy', hlen, hdrop⟩ : ∃ y', (heap.set a (x.set i (f x[i] y[i])))[b]? = some y' ∧
          y'.length = y.length ∧ y'.drop (i + 1) = y.drop (i + 1) := by
        by_cases hab : a = b
        · subst hab
          rw [h] at h'
          obtain rfl := Option.some.inj h'
          refine ⟨_, List.getElem?_set_self ha, by simp, ?_⟩
          rw [List.drop_set_of_lt (by omega)]
        · exact ⟨y, by rw [List.getElem?_set_ne hab]; exact h', rfl, rfl⟩
      rw [transformLoop_spec f a b fuel (i + 1) _ (x.set i (f x[i] y[i])) y'
        (by rw [List.getElem?_set_self ha]) hy' (by simp; omega)]
      rw [hlen, hdrop, List.set_set, List.length_set]
      have hcond : (x.length ≤ y.length ∨ fuel = 0) ↔ (x.length ≤ y.length ∨ fuel + 1 = 0) := by
        constructor
        · rintro (h | h)
          · exact Or.inl h
          · left; omega
        · rintro (h | h)
          · exact Or.inl h
          · omega
      rw [if_congr hcond rfl rfl]
      congr 3
      rw [List.take_add_one, List.getElem?_set_self hil, List.drop_set_of_lt (by omega)]
      rw [List.drop_eq_getElem_cons hil, List.drop_eq_getElem_cons hiy]
      simp only [List.zipWith_cons_cons, List.take_set_of_le (Nat.le_refl i), Option.toList_some,
        List.append_assoc, List.singleton_append]
    · rw [List.getElem?_eq_none (by omega)]
      dsimp only
      rw [if_neg (by omega)]

/-! ## Validity -/

/-- All pointers lead to containers. -/
def Valid (st : State K) : Prop := ∀ i a, st.address i = some a → a < st.heap.length

/-- No two vectors have the same container. -/
def Separate (st : State K) : Prop := ∀ i j a, st.address i = some a → st.address j = some a → i = j

theorem value_some {st : State K} {i a : Nat} (h : st.address i = some a) :
    st.value i = st.heap[a]? := by
  unfold State.value; rw [h]

theorem value_none {st : State K} {i : Nat} (h : st.address i = none) : st.value i = none := by
  unfold State.value; rw [h]

theorem value_isSome {st : State K} (hv : Valid st) {i a : Nat} (h : st.address i = some a) :
    ∃ x, st.value i = some x ∧ st.heap[a]? = some x := by
  have ha := hv i a h
  exact ⟨st.heap[a], by rw [value_some h, List.getElem?_eq_getElem ha], List.getElem?_eq_getElem ha⟩

theorem value_address {st : State K} {i : Nat} {x : List K} (h : st.value i = some x) :
    ∃ a, st.address i = some a ∧ st.heap[a]? = some x := by
  cases ha : st.address i with
  | none => rw [value_none ha] at h; simp at h
  | some a => rw [value_some ha] at h; exact ⟨a, rfl, h⟩

theorem address_lt {st : State K} {i a : Nat} (h : st.address i = some a) : i < st.vecs.length := by
  by_contra hlt
  unfold State.address at h
  rw [List.getElem?_eq_none (by omega)] at h
  simp at h

/-- Replacing a container. -/
theorem value_heap_set (st : State K) {a : Nat} (ha : a < st.heap.length) (c : List K) (j : Nat) :
    State.value { st with heap := st.heap.set a c } j =
      if st.address j = some a then some c else st.value j := by
  have hadr : State.address { st with heap := st.heap.set a c } j = st.address j := rfl
  cases hj : st.address j with
  | none => rw [value_none (hadr.trans hj), value_none hj]; simp
  | some b =>
    rw [value_some (hadr.trans hj), value_some hj]
    by_cases hab : b = a
    · subst hab; simp [ha]
    · simp [hab, List.getElem?_set_ne (Ne.symm hab)]

theorem mapVec_spec {st : State K} (hv : Valid st) (f : K → K) (i : Nat) :
    st.mapVec f i = match st.address i, st.value i with
      | some a, some x => some { st with heap := st.heap.set a (x.map f) }
      | _, _ => none := by
  unfold State.mapVec
  cases ha : st.address i with
  | none => rfl
  | some a =>
    obtain ⟨x, hx, hh⟩ := value_isSome hv ha
    rw [hx]
    dsimp only
    rw [mapLoop_spec f a x.length 0 st.heap x hh (by omega)]
    simp

theorem transformVec_spec {st : State K} (hv : Valid st) (f : K → K → K) (i j : Nat) :
    st.transformVec f i j = match st.address i, st.value i, st.value j with
      | some a, some x, some y =>
        if x.length ≤ y.length then some { st with heap := st.heap.set a (List.zipWith f x y) }
        else none
      | _, _, _ => none := by
  unfold State.transformVec
  cases ha : st.address i with
  | none => rfl
  | some a =>
    obtain ⟨x, hx, hh⟩ := value_isSome hv ha
    cases hb : st.address j with
    | none => rw [value_none hb]; rw [hx]
    | some b =>
      obtain ⟨y, hy, hh'⟩ := value_isSome hv hb
      rw [hx, hy]
      dsimp only
      rw [transformLoop_spec f a b x.length 0 st.heap x y hh hh' (by omega)]
      have : (x.length ≤ y.length ∨ x.length = 0) ↔ x.length ≤ y.length := by omega
      rw [if_congr this rfl rfl]
      by_cases hl : x.length ≤ y.length
      · simp [hl]
      · simp [hl]

/-- The address after a new pointer is appended. -/
theorem address_append (heap : List (List K)) (vecs : List (Option Nat)) (p : Option Nat) (j : Nat) :
    State.address ⟨heap, vecs ++ [p]⟩ j =
      if j = vecs.length then p else (vecs[j]?).join := by
  unfold State.address
  by_cases h : j < vecs.length
  · rw [List.getElem?_append_left h, if_neg (by omega)]
  · by_cases h' : j = vecs.length
    · subst h'; simp
    · rw [if_neg h', List.getElem?_eq_none (by simp; omega), List.getElem?_eq_none (by omega)]

theorem address_set (heap : List (List K)) (vecs : List (Option Nat)) (i : Nat) (p : Option Nat)
    (hi : i < vecs.length) (j : Nat) :
    State.address ⟨heap, vecs.set i p⟩ j = if j = i then p else (vecs[j]?).join := by
  unfold State.address
  by_cases h : j = i
  · subst h; simp [hi]
  · rw [if_neg h, List.getElem?_set_ne (Ne.symm h)]

theorem step_valid {st st' : State K} (hv : Valid st) {e : Event K} (h : step st e = some st') :
    Valid st' := by
  have hset : ∀ a c, Valid { st with heap := st.heap.set a c } := by
    intro a c i b hb
    simpa using hv i b hb
  have hmap : ∀ f i, st.mapVec f i = some st' → Valid st' := by
    intro f i h
    rw [mapVec_spec hv] at h
    split at h
    · obtain rfl := Option.some.inj h; exact hset _ _
    · simp at h
  have htr : ∀ f i j, st.transformVec f i j = some st' → Valid st' := by
    intro f i j h
    rw [transformVec_spec hv] at h
    split at h
    · split at h
      · obtain rfl := Option.some.inj h; exact hset _ _
      · simp at h
    · simp at h
  have hall : ∀ c, Valid (st.allocate c) := by
    intro c i b hb
    unfold State.allocate at hb ⊢
    rw [address_append] at hb
    simp only [List.length_append, List.length_singleton]
    split at hb
    · obtain rfl := Option.some.inj hb; omega
    · have := hv i b hb; omega
  cases e with
  | container c =>
    simp only [step, Option.some.injEq] at h
    subst h
    intro i b hb
    have := hv i b hb
    simp only [List.length_append, List.length_singleton]; omega
  | construct n =>
    simp only [step, Option.some.injEq] at h
    subst h; exact hall _
  | constructUnattached =>
    simp only [step, Option.some.injEq] at h
    subst h
    intro i b hb
    rw [address_append] at hb
    split at hb
    · simp at hb
    · exact hv i b hb
  | constructExternal n a =>
    simp only [step] at h
    cases hc : st.heap[a]? with
    | none => rw [hc] at h; simp at h
    | some c =>
      rw [hc] at h
      simp only [Option.some.injEq] at h
      subst h
      intro i b hb
      rw [address_append] at hb
      simp only [List.length_set]
      split at hb
      · obtain rfl := Option.some.inj hb
        exact (List.getElem?_eq_some_iff.1 hc).1
      · exact hv i b hb
  | constructValue n e =>
    simp only [step, Option.some.injEq] at h
    subst h; exact hall _
  | copy n i =>
    simp only [step] at h
    cases hc : st.value i with
    | none => rw [hc] at h; simp at h
    | some c =>
      rw [hc] at h
      simp only [Option.some.injEq] at h
      subst h
      intro j b hb
      have := hall (resize n (List.replicate n 0)) j b hb
      simpa using this
  | move i =>
    simp only [step] at h
    split at h
    · rename_i hi
      simp only [Option.some.injEq] at h
      subst h
      intro j b hb
      rw [address_append] at hb
      split at hb
      · exact hv i b hb
      · have h2 := address_set st.heap st.vecs i none hi j
        unfold State.address at h2
        rw [h2] at hb
        split at hb
        · simp at hb
        · exact hv j b hb
    · simp at h
  | assign i j =>
    simp only [step] at h
    split at h
    · rename_i hi
      split at h
      · simp only [Option.some.injEq] at h; subst h; exact hv
      · cases ha : st.address i with
        | some a =>
          cases hc : st.value j with
          | none => rw [ha, hc] at h; simp at h
          | some c =>
            rw [ha, hc] at h
            simp only [Option.some.injEq] at h
            subst h; exact hset _ _
        | none =>
          cases hc : st.value j with
          | none => rw [ha, hc] at h; simp at h
          | some c =>
            rw [ha, hc] at h
            simp only [Option.some.injEq] at h
            subst h
            intro k b hb
            rw [address_set _ _ _ _ hi] at hb
            simp only [List.length_append, List.length_singleton]
            split at hb
            · obtain rfl := Option.some.inj hb; omega
            · have := hv k b hb; omega
    · simp at h
  | attach i j =>
    simp only [step] at h
    split at h
    · rename_i hi
      simp only [Option.some.injEq] at h
      subst h
      intro k b hb
      rw [address_set _ _ _ _ hi.1] at hb
      split at hb
      · exact hv j b hb
      · exact hv k b hb
    · simp at h
  | attachContainer i a =>
    simp only [step] at h
    split at h
    · rename_i hi
      simp only [Option.some.injEq] at h
      subst h
      intro k b hb
      rw [address_set _ _ _ _ hi.1] at hb
      split at hb
      · obtain rfl := Option.some.inj hb; exact hi.2
      · exact hv k b hb
    · simp at h
  | detach i =>
    simp only [step] at h
    split at h
    · rename_i hi
      simp only [Option.some.injEq] at h
      subst h
      intro k b hb
      rw [address_set _ _ _ _ hi] at hb
      split at hb
      · simp at hb
      · exact hv k b hb
    · simp at h
  | fill i e => exact hmap _ _ h
  | scale i e => exact hmap _ _ h
  | shift i e => exact hmap _ _ h
  | add i j => exact htr _ _ _ h
  | sub i j => exact htr _ _ _ h
  | axpy i a j => exact htr _ _ _ h
  | write i k e =>
    simp only [step] at h
    cases ha : st.address i with
    | none => rw [ha] at h; simp at h
    | some a =>
      cases hc : st.value i with
      | none => rw [ha, hc] at h; simp at h
      | some x =>
        rw [ha, hc] at h
        dsimp only at h
        split at h
        · simp only [Option.some.injEq] at h
          subst h; exact hset _ _
        · simp at h

theorem init_valid : Valid (State.init : State K) := by
  intro i a h; simp [State.address, State.init] at h

theorem run_valid {h : List (Event K)} : ∀ {st st' : State K}, Valid st → run st h = some st' →
    Valid st' := by
  induction h with
  | nil => intro st st' hv hr; simp only [run, Option.some.injEq] at hr; subst hr; exact hv
  | cons e es ih =>
    intro st st' hv hr
    unfold run at hr
    cases hs : step st e with
    | none => rw [hs] at hr; simp at hr
    | some st₁ => rw [hs] at hr; exact ih (step_valid hv hs) hr

/-! ## Vectors as variables -/

/-- The variables hold what the vectors show. -/
def Rel (st : State K) (vars : List (Option (List K))) : Prop :=
  vars.length = st.vecs.length ∧ ∀ i, content vars i = st.value i

theorem content_set (vars : List (Option (List K))) {i : Nat} (hi : i < vars.length)
    (v : Option (List K)) (j : Nat) :
    content (vars.set i v) j = if j = i then v else content vars j := by
  unfold content
  by_cases h : j = i
  · subst h; simp [hi]
  · rw [if_neg h, List.getElem?_set_ne (Ne.symm h)]

theorem content_append (vars : List (Option (List K))) (v : Option (List K)) (j : Nat) :
    content (vars ++ [v]) j = if j = vars.length then v else content vars j := by
  unfold content
  by_cases h : j < vars.length
  · rw [List.getElem?_append_left h, if_neg (by omega)]
  · by_cases h' : j = vars.length
    · subst h'; simp
    · rw [if_neg h', List.getElem?_eq_none (by simp; omega), List.getElem?_eq_none (by omega)]

theorem rel_values (st : State K) : Rel st (values st) := by
  refine ⟨by simp [values], ?_⟩
  intro i
  unfold content values
  by_cases h : i < st.vecs.length
  · simp [h]
  · rw [List.getElem?_eq_none (by simp; omega)]
    cases ha : st.address i with
    | none => rw [value_none ha]; rfl
    | some a => exact absurd (address_lt ha) h

theorem rel_eq {st : State K} {vars : List (Option (List K))} (h : Rel st vars) :
    vars = values st := by
  have h' := rel_values st
  apply List.ext_getElem?
  intro i
  have hl : vars.length = (values st).length := h.1.trans h'.1.symm
  have hc := (h.2 i).trans (h'.2 i).symm
  by_cases hi : i < vars.length
  · unfold content at hc
    rw [List.getElem?_eq_getElem hi, List.getElem?_eq_getElem (by omega)] at hc ⊢
    simp only [Option.join_some] at hc
    rw [hc]
  · rw [List.getElem?_eq_none (by omega), List.getElem?_eq_none (by omega)]

theorem sep_heap {st : State K} (hs : Separate st) (heap : List (List K)) :
    Separate { st with heap := heap } := fun i j a hi hj => hs i j a hi hj

/-- Replacing the container of one vector. -/
theorem rel_heap_set {st : State K} (hv : Valid st) (hs : Separate st)
    {vars : List (Option (List K))} (hr : Rel st vars) {i a : Nat} (ha : st.address i = some a)
    (c : List K) : Rel { st with heap := st.heap.set a c } (vars.set i (some c)) := by
  refine ⟨by simpa using hr.1, ?_⟩
  intro j
  rw [content_set _ (by rw [hr.1]; exact address_lt ha), value_heap_set st (hv i a ha)]
  by_cases h : j = i
  · subst h; simp [ha]
  · rw [if_neg h, if_neg (fun hj => h (hs j i a hj ha))]
    exact hr.2 j

theorem value_append_heap {st : State K} (hv : Valid st) (c : List K) (vecs : List (Option Nat))
    {j : Nat} (hj : (vecs[j]?).join = st.address j) :
    State.value ⟨st.heap ++ [c], vecs⟩ j = st.value j := by
  have hadr : State.address ⟨st.heap ++ [c], vecs⟩ j = st.address j := hj
  cases ha : st.address j with
  | none => rw [value_none (hadr.trans ha), value_none ha]
  | some a =>
    rw [value_some (hadr.trans ha), value_some ha]
    exact List.getElem?_append_left (hv j a ha)

theorem value_same_heap {st : State K} (vecs : List (Option Nat))
    {j : Nat} (hj : (vecs[j]?).join = st.address j) :
    State.value ⟨st.heap, vecs⟩ j = st.value j := by
  have hadr : State.address ⟨st.heap, vecs⟩ j = st.address j := hj
  unfold State.value
  rw [hadr]

/-- A new vector with a container of its own. -/
theorem sim_allocate {st : State K} (hv : Valid st) (hs : Separate st)
    {vars : List (Option (List K))} (hr : Rel st vars) (c : List K) :
    Separate (st.allocate c) ∧ Rel (st.allocate c) (vars ++ [some c]) := by
  unfold State.allocate
  constructor
  · intro i j a hi hj
    rw [address_append] at hi hj
    split at hi <;> split at hj
    · omega
    · obtain rfl := Option.some.inj hi
      exact absurd (hv j _ hj) (by omega)
    · obtain rfl := Option.some.inj hj
      exact absurd (hv i _ hi) (by omega)
    · exact hs i j a hi hj
  · refine ⟨by simp [hr.1], ?_⟩
    intro j
    rw [content_append, hr.1]
    by_cases h : j = st.vecs.length
    · rw [if_pos h, value_some (a := st.heap.length) (by rw [address_append, if_pos h])]
      simp
    · rw [if_neg h, hr.2 j]
      refine (value_append_heap hv c _ ?_).symm
      have := address_append (st.heap ++ [c]) st.vecs (some st.heap.length) j
      rw [if_neg h] at this
      exact this

/-- What the step has to do. -/
def Simulates (r : Option (State K)) (m : Option (List (Option (List K)))) : Prop :=
  match r, m with
  | some st', some vars' => Separate st' ∧ Rel st' vars'
  | none, none => True
  | _, _ => False

theorem sim_map {st : State K} (hv : Valid st) (hs : Separate st) {vars : List (Option (List K))}
    (hr : Rel st vars) (f : K → K) (i : Nat) :
    Simulates (st.mapVec f i) (onOne (fun x => x.map f) vars i) := by
  rw [mapVec_spec hv]
  unfold onOne
  rw [hr.2 i]
  cases ha : st.address i with
  | none => rw [value_none ha]; trivial
  | some a =>
    obtain ⟨x, hx, _⟩ := value_isSome hv ha
    rw [hx]
    exact ⟨sep_heap hs _, rel_heap_set hv hs hr ha _⟩

theorem sim_transform {st : State K} (hv : Valid st) (hs : Separate st)
    {vars : List (Option (List K))} (hr : Rel st vars) (f : K → K → K) (i j : Nat) :
    Simulates (st.transformVec f i j) (onTwo f vars i j) := by
  rw [transformVec_spec hv]
  unfold onTwo
  rw [hr.2 i, hr.2 j]
  cases ha : st.address i with
  | none => rw [value_none ha]; trivial
  | some a =>
    obtain ⟨x, hx, _⟩ := value_isSome hv ha
    rw [hx]
    cases hy : st.value j with
    | none => trivial
    | some y =>
      dsimp only
      by_cases hl : x.length ≤ y.length
      · rw [if_pos hl, if_pos hl]
        exact ⟨sep_heap hs _, rel_heap_set hv hs hr ha _⟩
      · rw [if_neg hl, if_neg hl]; trivial

theorem sim_step {st : State K} (hv : Valid st) (hs : Separate st) {vars : List (Option (List K))}
    (hr : Rel st vars) (e : Event K) (he : Private e) : Simulates (step st e) (meaning vars e) := by
  cases e with
  | container c => exact he.elim
  | constructExternal n a => exact he.elim
  | attach i j => exact he.elim
  | attachContainer i a => exact he.elim
  | construct n =>
    have := sim_allocate hv hs hr (resize n [])
    simpa [step, meaning, Simulates, resize] using this
  | constructUnattached =>
    refine ⟨?_, by simp [hr.1], ?_⟩
    · intro i j a hi hj
      rw [address_append] at hi hj
      split at hi
      · simp at hi
      · split at hj
        · simp at hj
        · exact hs i j a hi hj
    · intro j
      rw [content_append, hr.1]
      by_cases h : j = st.vecs.length
      · rw [if_pos h, value_none (by rw [address_append, if_pos h])]
      · rw [if_neg h, hr.2 j]
        refine (value_same_heap _ ?_).symm
        have := address_append st.heap st.vecs none j
        rw [if_neg h] at this
        exact this
  | constructValue n e =>
    have := sim_allocate hv hs hr ((resize n ([] : List K)).map fun _ => e)
    simpa [step, meaning, Simulates, resize] using this
  | copy n i =>
    simp only [step, meaning]
    rw [hr.2 i]
    cases hx : st.value i with
    | none => trivial
    | some x =>
      dsimp only
      have h1 := sim_allocate hv hs hr x
      have : (st.allocate (resize n (List.replicate n 0))).heap.set st.heap.length x
          = (st.allocate x).heap := by
        simp [State.allocate]
      rw [this]
      exact h1
  | move i =>
    simp only [step, meaning]
    rw [hr.1]
    by_cases hi : i < st.vecs.length
    · rw [if_pos hi, if_pos hi]
      have hset := fun j => address_set st.heap st.vecs i none hi j
      unfold State.address at hset
      refine ⟨?_, by simp [hr.1], ?_⟩
      · intro j k a hj hk
        rw [address_append] at hj hk
        rw [hset] at hj hk
        simp only [List.length_set] at hj hk
        by_cases h1 : j = st.vecs.length
        · rw [if_pos h1] at hj
          by_cases h2 : k = st.vecs.length
          · omega
          · rw [if_neg h2] at hk
            by_cases h3 : k = i
            · rw [if_pos h3] at hk; simp at hk
            · rw [if_neg h3] at hk; exact absurd (hs k i a hk hj) h3
        · rw [if_neg h1] at hj
          by_cases h3 : j = i
          · rw [if_pos h3] at hj; simp at hj
          · rw [if_neg h3] at hj
            by_cases h2 : k = st.vecs.length
            · rw [if_pos h2] at hk; exact absurd (hs j i a hj hk) h3
            · rw [if_neg h2] at hk
              by_cases h4 : k = i
              · rw [if_pos h4] at hk; simp at hk
              · rw [if_neg h4] at hk; exact hs j k a hj hk
      · intro j
        have hadr := address_append st.heap (st.vecs.set i none) (st.address i) j
        rw [hset] at hadr
        rw [content_append, content_set _ (by rw [hr.1]; exact hi)]
        simp only [List.length_set] at hadr ⊢
        rw [hr.1]
        by_cases h : j = st.vecs.length
        · rw [if_pos h] at hadr ⊢
          rw [hr.2 i]
          unfold State.value
          rw [hadr]
        · rw [if_neg h] at hadr ⊢
          by_cases h' : j = i
          · rw [if_pos h'] at hadr ⊢
            rw [value_none hadr]
          · rw [if_neg h'] at hadr ⊢
            rw [hr.2 j]
            exact (value_same_heap _ hadr).symm
    · rw [if_neg hi, if_neg hi]; trivial
  | assign i j =>
    simp only [step, meaning]
    rw [hr.1, hr.2 j]
    by_cases hi : i < st.vecs.length
    · rw [if_pos hi, if_pos hi]
      by_cases hij : i = j
      · rw [if_pos hij, if_pos hij]; exact ⟨hs, hr⟩
      · rw [if_neg hij, if_neg hij]
        cases ha : st.address i with
        | some a =>
          cases hy : st.value j with
          | none => trivial
          | some y => exact ⟨sep_heap hs _, rel_heap_set hv hs hr ha _⟩
        | none =>
          cases hy : st.value j with
          | none => trivial
          | some y =>
            have hset := fun k => address_set (st.heap ++ [y]) st.vecs i (some st.heap.length) hi k
            refine ⟨?_, by simp [hr.1], ?_⟩
            · intro k l a hk hl
              rw [hset] at hk hl
              split at hk <;> split at hl
              · omega
              · obtain rfl := Option.some.inj hk
                exact absurd (hv l _ hl) (by omega)
              · obtain rfl := Option.some.inj hl
                exact absurd (hv k _ hk) (by omega)
              · exact hs k l a hk hl
            · intro k
              rw [content_set _ (by rw [hr.1]; exact hi)]
              by_cases h : k = i
              · rw [if_pos h, value_some (a := st.heap.length) (by rw [hset, if_pos h])]
                simp
              · rw [if_neg h, hr.2 k]
                refine (value_append_heap hv y _ ?_).symm
                have := hset k
                rw [if_neg h] at this
                exact this
    · rw [if_neg hi, if_neg hi]; trivial
  | detach i =>
    simp only [step, meaning]
    rw [hr.1]
    by_cases hi : i < st.vecs.length
    · rw [if_pos hi, if_pos hi]
      have hset := fun k => address_set st.heap st.vecs i none hi k
      refine ⟨?_, by simp [hr.1], ?_⟩
      · intro k l a hk hl
        rw [hset] at hk hl
        split at hk
        · simp at hk
        · split at hl
          · simp at hl
          · exact hs k l a hk hl
      · intro k
        rw [content_set _ (by rw [hr.1]; exact hi)]
        by_cases h : k = i
        · rw [if_pos h, value_none (by rw [hset, if_pos h])]
        · rw [if_neg h, hr.2 k]
          refine (value_same_heap _ ?_).symm
          have := hset k
          rw [if_neg h] at this
          exact this
    · rw [if_neg hi, if_neg hi]; trivial
  | fill i e => exact sim_map hv hs hr _ i
  | scale i e => exact sim_map hv hs hr _ i
  | shift i e => exact sim_map hv hs hr _ i
  | add i j => exact sim_transform hv hs hr _ i j
  | sub i j => exact sim_transform hv hs hr _ i j
  | axpy i a j => exact sim_transform hv hs hr _ i j
  | write i k e =>
    simp only [step, meaning]
    rw [hr.2 i]
    cases ha : st.address i with
    | none => rw [value_none ha]; trivial
    | some a =>
      obtain ⟨x, hx, _⟩ := value_isSome hv ha
      rw [hx]
      dsimp only
      by_cases hk : k < x.length
      · rw [if_pos hk, if_pos hk]
        exact ⟨sep_heap hs _, rel_heap_set hv hs hr ha _⟩
      · rw [if_neg hk, if_neg hk]; trivial

theorem sim_run (h : List (Event K)) : ∀ {st : State K} {vars : List (Option (List K))},
    Valid st → Separate st → Rel st vars → (∀ e ∈ h, Private e) →
    (run st h).map values = meanings vars h := by
  induction h with
  | nil => intro st vars _ _ hr _; simp [run, meanings, rel_eq hr]
  | cons e es ih =>
    intro st vars hv hs hr hp
    have hsim := sim_step hv hs hr e (hp e (by simp))
    unfold run meanings
    cases h1 : step st e with
    | none =>
      cases h2 : meaning vars e with
      | none => rfl
      | some v => rw [h1, h2] at hsim; exact hsim.elim
    | some st' =>
      cases h2 : meaning vars e with
      | none => rw [h1, h2] at hsim; exact hsim.elim
      | some v =>
        rw [h1, h2] at hsim
        exact ih (step_valid hv h1) hsim.1 hsim.2 fun e' he' => hp e' (by simp [he'])

/-! ## Sharing -/

/-- An operation in place replaces one container. -/
theorem step_inPlace {st st' : State K} (hv : Valid st) {e : Event K} (h : step st e = some st')
    {i : Nat} (hi : inPlace st e = some i) :
    ∃ a c vars', st.address i = some a ∧ st' = { st with heap := st.heap.set a c } ∧
      meaning (values st) e = some vars' ∧ content vars' i = some c := by
  have hr := rel_values st
  have hone : ∀ f k, st.mapVec f k = some st' → ∃ a c vars', st.address k = some a ∧
      st' = { st with heap := st.heap.set a c } ∧
      onOne (fun x => x.map f) (values st) k = some vars' ∧ content vars' k = some c := by
    intro f k h
    rw [mapVec_spec hv] at h
    cases ha : st.address k with
    | none => rw [ha] at h; simp at h
    | some a =>
      obtain ⟨x, hx, _⟩ := value_isSome hv ha
      rw [ha, hx] at h
      simp only [Option.some.injEq] at h
      refine ⟨a, x.map f, (values st).set k (some (x.map f)), rfl, h.symm, ?_, ?_⟩
      · unfold onOne; rw [hr.2 k, hx]
      · rw [content_set _ (by rw [hr.1]; exact address_lt ha), if_pos rfl]
  have htwo : ∀ f k l, st.transformVec f k l = some st' → ∃ a c vars', st.address k = some a ∧
      st' = { st with heap := st.heap.set a c } ∧
      onTwo f (values st) k l = some vars' ∧ content vars' k = some c := by
    intro f k l h
    rw [transformVec_spec hv] at h
    cases ha : st.address k with
    | none => rw [ha] at h; simp at h
    | some a =>
      obtain ⟨x, hx, _⟩ := value_isSome hv ha
      cases hy : st.value l with
      | none => rw [ha, hx, hy] at h; simp at h
      | some y =>
        rw [ha, hx, hy] at h
        dsimp only at h
        by_cases hl : x.length ≤ y.length
        · rw [if_pos hl] at h
          simp only [Option.some.injEq] at h
          refine ⟨a, List.zipWith f x y, (values st).set k (some (List.zipWith f x y)), rfl,
            h.symm, ?_, ?_⟩
          · unfold onTwo; rw [hr.2 k, hr.2 l, hx, hy]; dsimp only; rw [if_pos hl]
          · rw [content_set _ (by rw [hr.1]; exact address_lt ha), if_pos rfl]
        · rw [if_neg hl] at h; simp at h
  cases e with
  | fill k e => simp only [inPlace, Option.some.injEq] at hi; subst hi; exact hone _ _ h
  | scale k e => simp only [inPlace, Option.some.injEq] at hi; subst hi; exact hone _ _ h
  | shift k e => simp only [inPlace, Option.some.injEq] at hi; subst hi; exact hone _ _ h
  | add k l => simp only [inPlace, Option.some.injEq] at hi; subst hi; exact htwo _ _ _ h
  | sub k l => simp only [inPlace, Option.some.injEq] at hi; subst hi; exact htwo _ _ _ h
  | axpy k a l => simp only [inPlace, Option.some.injEq] at hi; subst hi; exact htwo _ _ _ h
  | write k n e =>
    simp only [inPlace, Option.some.injEq] at hi
    subst hi
    simp only [step] at h
    cases ha : st.address k with
    | none => rw [ha] at h; simp at h
    | some a =>
      obtain ⟨x, hx, _⟩ := value_isSome hv ha
      rw [ha, hx] at h
      dsimp only at h
      by_cases hk : n < x.length
      · rw [if_pos hk] at h
        simp only [Option.some.injEq] at h
        refine ⟨a, x.set n e, (values st).set k (some (x.set n e)), rfl, h.symm, ?_, ?_⟩
        · simp only [meaning]; rw [hr.2 k, hx]; dsimp only; rw [if_pos hk]
        · rw [content_set _ (by rw [hr.1]; exact address_lt ha), if_pos rfl]
      · rw [if_neg hk] at h; simp at h
  | assign k l =>
    simp only [inPlace] at hi
    cases ha : st.address k with
    | none => rw [ha] at hi; simp at hi
    | some a =>
      rw [ha] at hi
      simp only [Option.isSome_some, if_true, Option.some.injEq] at hi
      subst hi
      have hlt := address_lt ha
      simp only [step, if_pos hlt, ha] at h
      obtain ⟨x, hx, hh⟩ := value_isSome hv ha
      by_cases hkl : k = l
      · rw [if_pos hkl] at h
        simp only [Option.some.injEq] at h
        refine ⟨a, x, values st, ha, ?_, ?_, ?_⟩
        · rw [set_self hh]; exact h.symm
        · simp only [meaning]; rw [hr.1, if_pos hlt, if_pos hkl]
        · rw [hr.2 k, hx]
      · rw [if_neg hkl] at h
        cases hy : st.value l with
        | none => rw [hy] at h; simp at h
        | some y =>
          rw [hy] at h
          simp only [Option.some.injEq] at h
          refine ⟨a, y, (values st).set k (some y), ha, h.symm, ?_, ?_⟩
          · simp only [meaning]; rw [hr.1, if_pos hlt, if_neg hkl, hr.2 l, hy]
          · rw [content_set _ (by rw [hr.1]; exact hlt), if_pos rfl]
  | container c => simp [inPlace] at hi
  | construct n => simp [inPlace] at hi
  | constructUnattached => simp [inPlace] at hi
  | constructExternal n a => simp [inPlace] at hi
  | constructValue n e => simp [inPlace] at hi
  | copy n k => simp [inPlace] at hi
  | move k => simp [inPlace] at hi
  | attach k l => simp [inPlace] at hi
  | attachContainer k a => simp [inPlace] at hi
  | detach k => simp [inPlace] at hi

/-- Pointers and values which an operation leaves alone. -/
theorem step_frame {st st' : State K} (hv : Valid st) {e : Event K} (h : step st e = some st')
    {j : Nat} (hj : j < st.vecs.length) (hb : j ∉ rebinds st e) :
    st'.address j = st.address j ∧
    ((∀ a, touched st e = some a → st.address j ≠ some a) → st'.value j = st.value j) := by
  have hin : ∀ i, inPlace st e = some i → touched st e = (inPlace st e).bind st.address →
      st'.address j = st.address j ∧
      ((∀ a, touched st e = some a → st.address j ≠ some a) → st'.value j = st.value j) := by
    intro i hi ht
    obtain ⟨a, c, _, ha, rfl, _⟩ := step_inPlace hv h hi
    refine ⟨rfl, fun hne => ?_⟩
    rw [value_heap_set st (hv i a ha), if_neg]
    exact hne a (by rw [ht, hi]; exact ha)
  have hne : j ≠ st.vecs.length := by omega
  have hall : ∀ c, (st.allocate c).address j = st.address j ∧
      (st.allocate c).value j = st.value j := by
    intro c
    have hadr : (st.allocate c).address j = st.address j := by
      unfold State.allocate
      rw [address_append, if_neg hne]; rfl
    exact ⟨hadr, value_append_heap hv c _ hadr⟩
  cases e with
  | fill k e => exact hin k rfl rfl
  | scale k e => exact hin k rfl rfl
  | shift k e => exact hin k rfl rfl
  | add k l => exact hin k rfl rfl
  | sub k l => exact hin k rfl rfl
  | axpy k a l => exact hin k rfl rfl
  | write k n e => exact hin k rfl rfl
  | assign k l =>
    cases ha : st.address k with
    | some a => exact hin k (by simp [inPlace, ha]) rfl
    | none =>
      have hjk : j ≠ k := by
        intro hh; apply hb; simp [rebinds, ha, hh]
      simp only [step, ha] at h
      split at h
      · rename_i hk
        split at h
        · simp only [Option.some.injEq] at h; subst h; exact ⟨rfl, fun _ => rfl⟩
        · cases hy : st.value l with
          | none => rw [hy] at h; simp at h
          | some y =>
            rw [hy] at h
            simp only [Option.some.injEq] at h
            subst h
            have hadr := address_set (st.heap ++ [y]) st.vecs k (some st.heap.length) hk j
            rw [if_neg hjk] at hadr
            exact ⟨hadr, fun _ => value_append_heap hv y _ hadr⟩
      · simp at h
  | container c =>
    simp only [step, Option.some.injEq] at h
    subst h
    exact ⟨rfl, fun _ => value_append_heap hv c _ rfl⟩
  | construct n =>
    simp only [step, Option.some.injEq] at h
    subst h
    exact ⟨(hall _).1, fun _ => (hall _).2⟩
  | constructUnattached =>
    simp only [step, Option.some.injEq] at h
    subst h
    have hadr := address_append st.heap st.vecs none j
    rw [if_neg hne] at hadr
    exact ⟨hadr, fun _ => value_same_heap _ hadr⟩
  | constructExternal n a =>
    simp only [step] at h
    cases hc : st.heap[a]? with
    | none => rw [hc] at h; simp at h
    | some c =>
      rw [hc] at h
      simp only [Option.some.injEq] at h
      subst h
      have hadr := address_append (st.heap.set a (resize n c)) st.vecs (some a) j
      rw [if_neg hne] at hadr
      refine ⟨hadr, fun ht => ?_⟩
      have hja := ht a rfl
      cases hb' : st.address j with
      | none => rw [value_none (hadr.trans hb'), value_none hb']
      | some b =>
        rw [value_some (hadr.trans hb'), value_some hb']
        exact List.getElem?_set_ne (fun hh => hja (by rw [hb', hh]))
  | constructValue n e =>
    simp only [step, Option.some.injEq] at h
    subst h
    exact ⟨(hall _).1, fun _ => (hall _).2⟩
  | copy n k =>
    simp only [step] at h
    cases hc : st.value k with
    | none => rw [hc] at h; simp at h
    | some c =>
      rw [hc] at h
      simp only [Option.some.injEq] at h
      subst h
      have hheap : (st.allocate (resize n (List.replicate n 0))).heap.set st.heap.length c
          = (st.allocate c).heap := by
        simp [State.allocate]
      rw [hheap]
      exact ⟨(hall c).1, fun _ => (hall c).2⟩
  | move k =>
    have hjk : j ≠ k := by
      intro hh; apply hb; simp [rebinds, hh]
    simp only [step] at h
    split at h
    · rename_i hk
      simp only [Option.some.injEq] at h
      subst h
      have h2 := address_set st.heap st.vecs k none hk j
      unfold State.address at h2
      have hadr := address_append st.heap (st.vecs.set k none) (st.address k) j
      rw [h2, if_neg hjk, if_neg (by simpa using hne)] at hadr
      exact ⟨hadr, fun _ => value_same_heap _ hadr⟩
    · simp at h
  | attach k l =>
    have hjk : j ≠ k := by
      intro hh; apply hb; simp [rebinds, hh]
    simp only [step] at h
    split at h
    · rename_i hk
      simp only [Option.some.injEq] at h
      subst h
      have hadr := address_set st.heap st.vecs k (st.address l) hk.1 j
      rw [if_neg hjk] at hadr
      exact ⟨hadr, fun _ => value_same_heap _ hadr⟩
    · simp at h
  | attachContainer k a =>
    have hjk : j ≠ k := by
      intro hh; apply hb; simp [rebinds, hh]
    simp only [step] at h
    split at h
    · rename_i hk
      simp only [Option.some.injEq] at h
      subst h
      have hadr := address_set st.heap st.vecs k (some a) hk.1 j
      rw [if_neg hjk] at hadr
      exact ⟨hadr, fun _ => value_same_heap _ hadr⟩
    · simp at h
  | detach k =>
    have hjk : j ≠ k := by
      intro hh; apply hb; simp [rebinds, hh]
    simp only [step] at h
    split at h
    · rename_i hk
      simp only [Option.some.injEq] at h
      subst h
      have hadr := address_set st.heap st.vecs k none hk j
      rw [if_neg hjk] at hadr
      exact ⟨hadr, fun _ => value_same_heap _ hadr⟩
    · simp at h

theorem step_length {st st' : State K} (hv : Valid st) {e : Event K} (h : step st e = some st') :
    st.vecs.length ≤ st'.vecs.length := by
  cases hi : inPlace st e with
  | some i =>
    obtain ⟨a, c, _, _, rfl, _⟩ := step_inPlace hv h hi
    exact Nat.le_refl _
  | none =>
    cases e with
    | fill k e => simp [inPlace] at hi
    | scale k e => simp [inPlace] at hi
    | shift k e => simp [inPlace] at hi
    | add k l => simp [inPlace] at hi
    | sub k l => simp [inPlace] at hi
    | axpy k a l => simp [inPlace] at hi
    | write k n e => simp [inPlace] at hi
    | container c => simp only [step, Option.some.injEq] at h; subst h; simp
    | construct n => simp only [step, Option.some.injEq] at h; subst h; simp [State.allocate]
    | constructUnattached => simp only [step, Option.some.injEq] at h; subst h; simp
    | constructValue n e => simp only [step, Option.some.injEq] at h; subst h; simp [State.allocate]
    | constructExternal n a =>
      simp only [step] at h
      split at h
      · simp only [Option.some.injEq] at h; subst h; simp
      · simp at h
    | copy n k =>
      simp only [step] at h
      split at h
      · simp only [Option.some.injEq] at h; subst h; simp [State.allocate]
      · simp at h
    | move k =>
      simp only [step] at h
      split at h
      · simp only [Option.some.injEq] at h; subst h; simp
      · simp at h
    | assign k l =>
      simp only [step] at h
      split at h
      · split at h
        · simp only [Option.some.injEq] at h; subst h; simp
        · split at h
          · simp only [Option.some.injEq] at h; subst h; simp
          · simp only [Option.some.injEq] at h; subst h; simp
          · simp at h
      · simp at h
    | attach k l =>
      simp only [step] at h
      split at h
      · simp only [Option.some.injEq] at h; subst h; simp
      · simp at h
    | attachContainer k a =>
      simp only [step] at h
      split at h
      · simp only [Option.some.injEq] at h; subst h; simp
      · simp at h
    | detach k =>
      simp only [step] at h
      split at h
      · simp only [Option.some.injEq] at h; subst h; simp
      · simp at h

theorem run_shared {i j : Nat} (h : List (Event K)) : ∀ {st st' : State K}, Valid st →
    i < st.vecs.length → j < st.vecs.length → st.address i = st.address j →
    KeepsPointers i j st h → run st h = some st' → st'.value i = st'.value j := by
  induction h with
  | nil =>
    intro st st' _ _ _ ha _ hr
    simp only [run, Option.some.injEq] at hr
    subst hr
    unfold State.value
    rw [ha]
  | cons e es ih =>
    intro st st' hv hi hj ha hk hr
    unfold run at hr
    cases hs : step st e with
    | none => rw [hs] at hr; simp at hr
    | some st₁ =>
      rw [hs] at hr
      have hl := step_length hv hs
      refine ih (step_valid hv hs) (by omega) (by omega) ?_ (hk.2.2 st₁ hs) hr
      rw [(step_frame hv hs hi hk.1).1, (step_frame hv hs hj hk.2.1).1]
      exact ha

end Verif.BackendStorage
