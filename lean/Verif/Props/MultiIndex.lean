import Verif.Proofs.MultiIndex
/-
C14: multi-indices behave like lists.
-/
namespace Verif
open MIndex

/-- **C14 (push/pop/set).** On a multi-index of any capacity, `push_back` and `push_front` append and prepend if there
is room, and are rejected if there is none; `pop_back` and `pop_front` remove the last and first entry and are
rejected on an empty index; `set` leaves exactly the given entry. -/
theorem C14_push_pop (m : MI) (h : m.Ok) (t : Nat) :
    (m.list.length < m.capacity → Gives (m.pushBack t) m.capacity (m.list ++ [t])) ∧
    (m.list.length = m.capacity → m.pushBack t = none) ∧
    (m.list.length < m.capacity → Gives (m.pushFront t) m.capacity (t :: m.list)) ∧
    (m.list.length = m.capacity → m.pushFront t = none) ∧
    (m.list ≠ [] → Gives m.popBack m.capacity m.list.dropLast) ∧
    (m.list ≠ [] → Gives m.popFront m.capacity m.list.tail) ∧
    (m.list = [] → m.popBack = none ∧ m.popFront = none) ∧
    (0 < m.capacity → Gives (m.set t) m.capacity [t]) := by
  have hl := length_list m h
  have hne : m.list ≠ [] ↔ 0 < m.sz := by
    rw [← hl]; exact List.length_pos_iff.symm
  unfold MI.Ok MI.capacity at h
  rw [hl]
  simp only [MI.capacity]
  refine ⟨?_, ?_, ?_, ?_, ?_, ?_, ?_, ?_⟩
  · intro hlt
    refine ⟨⟨m.cells.set m.sz t, m.sz + 1⟩, by simp [MI.pushBack, MI.capacity, hlt], ?_, by simp [MI.capacity], ?_⟩
    · simp [MI.Ok, MI.capacity]; omega
    · simp only [MI.list]
      apply List.ext_getElem?
      intro i
      rw [List.getElem?_take, List.getElem?_append, List.length_take, Nat.min_eq_left h]
      rcases Nat.lt_trichotomy i m.sz with hi | hi | hi
      · rw [if_pos (by omega), if_pos hi, List.getElem?_set_ne (by omega), List.getElem?_take_of_lt hi]
      · subst hi; simp [hlt]
      · rw [if_neg (by omega), if_neg (by omega)]
        rw [List.getElem?_eq_none]; simp; omega
  · intro he; simp [MI.pushBack, MI.capacity, he]
  · intro hlt
    refine ⟨⟨(shiftBackward m.cells m.sz).set 0 t, m.sz + 1⟩, ?_, ?_, ?_, ?_⟩
    · simp [MI.pushFront, MI.resize, MI.capacity, MI.put, Nat.succ_le_of_lt hlt]
    · simp [MI.Ok, MI.capacity, shiftBackward_length]; omega
    · simp [MI.capacity, shiftBackward_length]
    · simp only [MI.list]
      apply List.ext_getElem?
      intro i
      rw [List.getElem?_take]
      cases i with
      | zero =>
        rw [if_pos (by omega), List.getElem?_set_self (by rw [shiftBackward_length]; omega)]
        simp
      | succ i =>
        rw [List.getElem?_set_ne (by omega), List.getElem?_cons_succ, List.getElem?_take,
          shiftBackward_get _ _ hlt]
        by_cases hi : i < m.sz
        · rw [if_pos (by omega), if_pos (by omega), if_pos hi]; rfl
        · rw [if_neg (by omega), if_neg hi]
  · intro he
    simp only [MI.pushFront, MI.resize, MI.capacity]
    rw [if_neg (by omega)]; rfl
  · intro hn
    have hp := hne.mp hn
    refine ⟨{ m with sz := m.sz - 1 }, by simp [MI.popBack, hp], by simp [MI.Ok, MI.capacity]; omega, rfl, ?_⟩
    simp only [MI.list, List.dropLast_eq_take, List.length_take, List.take_take]
    congr 1; omega
  · intro hn
    have hp := hne.mp hn
    refine ⟨⟨if 1 < m.sz then copyUp m.cells 1 0 (m.sz - 1) else m.cells, m.sz - 1⟩, ?_, ?_, ?_, ?_⟩
    · have hc : (if 1 < m.sz then copyUp m.cells 1 0 (m.sz - 1) else m.cells).length = m.cells.length := by
        split
        · exact copyUp_length _ _ _ _
        · rfl
      simp only [MI.popFront, MI.resize, MI.capacity]
      rw [if_neg (show ¬ m.sz = 0 by omega), if_pos (by rw [hc]; omega)]
    · simp only [MI.Ok, MI.capacity]; split <;> simp [copyUp_length] <;> omega
    · simp only [MI.capacity]; split <;> simp [copyUp_length]
    · simp only [MI.list]
      apply List.ext_getElem?
      intro i
      rw [List.getElem?_tail, List.getElem?_take, List.getElem?_take]
      by_cases hi : i < m.sz - 1
      · rw [if_pos hi, if_pos (by omega), if_pos (by omega), copyUp_get _ _ _ _ (by omega) (by omega),
          if_pos (by omega)]
        congr 1; omega
      · rw [if_neg hi, if_neg (by omega)]
  · intro he
    have : m.sz = 0 := by
      rcases Nat.eq_zero_or_pos m.sz with h | h
      · exact h
      · exact absurd he (hne.mpr h)
    simp [MI.popBack, MI.popFront, this]
  · intro hc
    refine ⟨⟨m.cells.set 0 t, 1⟩, by simp [MI.set, MI.clear, MI.pushBack, MI.capacity, hc], ?_, by simp [MI.capacity], ?_⟩
    · simp [MI.Ok, MI.capacity]; omega
    · simp only [MI.list]
      cases hm : m.cells with
      | nil => simp [hm] at hc
      | cons x xs => simp

/-- **C14 (access).** Entries, front and back are those of the list; access past the end is rejected. -/
theorem C14_access (m : MI) (h : m.Ok) :
    (∀ i, m.get i = m.list[i]?) ∧ m.front = m.list.head? ∧ m.back = m.list.getLast? := by
  have hl := length_list m h
  unfold MI.Ok MI.capacity at h
  have g : ∀ i, m.get i = m.list[i]? := by
    intro i
    simp only [MI.get, MI.list, List.getElem?_take]
  refine ⟨g, ?_, ?_⟩
  · rw [List.head?_eq_getElem?]; exact g 0
  · rw [List.getLast?_eq_getElem?, hl]
    simp only [MI.back]
    split
    · exact g _
    · have : m.sz = 0 := by omega
      rw [this]
      symm; rw [List.getElem?_eq_none]; omega

/-- **C14 (accumulate).** The back/front element is increased, all others stay. -/
theorem C14_accumulate (m : MI) (h : m.Ok) (t : Nat) :
    (∀ l b, m.list = l ++ [b] → Gives (m.accumulateBack t) m.capacity (l ++ [b + t])) ∧
    (∀ b l, m.list = b :: l → Gives (m.accumulateFront t) m.capacity ((b + t) :: l)) := by
  have hl := length_list m h
  obtain ⟨g, hf, hb⟩ := C14_access m h
  unfold MI.Ok MI.capacity at h
  constructor
  · intro l b e
    have hsz : m.sz = l.length + 1 := by rw [← hl, e]; simp
    have hb' : m.back = some b := by rw [hb, e]; simp
    refine ⟨{ m with cells := m.cells.set (m.sz - 1) (b + t) }, ?_, by simpa [MI.Ok, MI.capacity] using h,
      by simp [MI.capacity], ?_⟩
    · simp only [MI.accumulateBack, hb', Option.bind_some, MI.put]
      rw [if_pos (by omega)]
    · simp only [MI.list, List.take_set]
      have : m.cells.take m.sz = l ++ [b] := e
      rw [this, hsz]
      simp
  · intro b l e
    have hsz : m.sz = l.length + 1 := by rw [← hl, e]; simp
    have hb' : m.front = some b := by rw [hf, e]; simp
    refine ⟨{ m with cells := m.cells.set 0 (b + t) }, ?_, by simpa [MI.Ok, MI.capacity] using h,
      by simp [MI.capacity], ?_⟩
    · simp only [MI.accumulateFront, hb', Option.bind_some, MI.put]
      rw [if_pos (by omega)]
    · simp only [MI.list, List.take_set]
      have : m.cells.take m.sz = b :: l := e
      rw [this]
      simp

/-- **C14 (join, reverse, equality).** `join` concatenates if there is room and is rejected otherwise; `reverse`
reverses; two multi-indices of the same capacity compare equal iff they have the same entries (the unused cells
do not matter). -/
theorem C14_join_reverse_eq (a b : MI) (ha : a.Ok) (hb : b.Ok) :
    (a.list.length + b.list.length ≤ a.capacity → Gives (a.join b) a.capacity (a.list ++ b.list)) ∧
    (a.capacity < a.list.length + b.list.length → a.join b = none) ∧
    Gives (some a.reverse) a.capacity a.list.reverse ∧
    (a.eq b = true ↔ a.list = b.list) := by
  have la := length_list a ha
  have lb := length_list b hb
  unfold MI.Ok MI.capacity at ha hb
  rw [la, lb]
  simp only [MI.capacity]
  refine ⟨?_, ?_, ?_, ?_⟩
  · intro hle
    have hlen : (b.cells.take b.sz).length = b.sz := by simp [Nat.min_eq_left hb]
    refine ⟨⟨copyInto a.cells a.sz (b.cells.take b.sz), a.sz + b.sz⟩, ?_, ?_, ?_, ?_⟩
    · simp [MI.join, MI.resize, MI.capacity, hle]
    · simp only [MI.Ok, MI.capacity, copyInto_length]; omega
    · simp [MI.capacity, copyInto_length]
    · simp only [MI.list]
      apply List.ext_getElem?
      intro i
      rw [List.getElem?_take, List.getElem?_append, List.length_take, Nat.min_eq_left ha,
        copyInto_get _ _ _ (by omega), hlen]
      by_cases h1 : i < a.sz
      · rw [if_pos (by omega), if_neg (by omega), if_pos h1, List.getElem?_take_of_lt h1]
      · rw [if_neg h1]
        by_cases h2 : i < a.sz + b.sz
        · rw [if_pos h2, if_pos (by omega)]
        · rw [if_neg h2, List.getElem?_eq_none]; omega
  · intro hgt
    simp only [MI.join, MI.capacity]
    rw [if_neg (by omega)]
  · refine ⟨_, rfl, ?_, ?_, ?_⟩
    · simp only [MI.reverse, MI.Ok, MI.capacity]
      split
      · cases hs : a.sz with
        | zero => simp
        | succ s => simp [reverseRange, fun_aux_length]; omega
      · exact ha
    · simp only [MI.reverse, MI.capacity]
      split
      · cases hs : a.sz with
        | zero => simp [reverseRange]
        | succ s => simp [reverseRange, fun_aux_length]
      · rfl
    · simp only [MI.reverse, MI.list, MI.capacity]
      split
      · cases hs : a.sz with
        | zero => simp
        | succ s =>
          simp only [reverseRange]
          apply List.ext_getElem?
          intro i
          rw [List.getElem?_take]
          by_cases hi : i < s + 1
          · rw [if_pos hi, fun_aux_get _ _ _ (by omega), if_pos (by omega),
              List.getElem?_reverse (by simp; omega), List.length_take, List.getElem?_take, if_pos (by omega)]
            congr 1; omega
          · rw [if_neg hi, List.getElem?_eq_none]; simp; omega
      · have : a.sz = 0 ∨ a.sz = 1 := by omega
        rcases this with e | e
        · simp [e]
        · rw [e]
          cases hc : a.cells with
          | nil => simp
          | cons x xs => simp
  · simp only [MI.eq, Bool.and_eq_true, beq_iff_eq, MI.list]
    constructor
    · rintro ⟨h1, h2⟩; rw [← h1]; exact h2
    · intro h
      have : a.sz = b.sz := by
        have := congrArg List.length h
        simpa [Nat.min_eq_left ha, Nat.min_eq_left hb] using this
      exact ⟨this, by rw [h, this]⟩

/-- **C14 (views).** A view of a multi-index shows a prefix of it; its operations are those of the list. -/
theorem C14_views (m : MI) (h : m.Ok) (v : View) (hv : v.Ok) :
    m.view.list = m.list ∧ m.view.Ok ∧
    (∀ s, s ≤ m.list.length → (m.viewOf s).list = m.list.take s ∧ (m.viewOf s).Ok) ∧
    (∀ i, v.get i = v.list[i]?) ∧
    (v.list ≠ [] → v.back = v.list.getLast? ∧ v.front = v.list.head?) ∧
    (v.list ≠ [] → ∃ w, v.backPopped = some w ∧ w.Ok ∧ w.list = v.list.dropLast) ∧
    (v.list = [] → v.backPopped = none) ∧
    Gives v.toMI v.mi.capacity v.list := by
  have hl := length_list m h
  obtain ⟨h1, h2⟩ := hv
  unfold MI.Ok MI.capacity at h2
  have hvl : v.list.length = v.size := by simp [View.list]; omega
  have hget : ∀ i, v.get i = v.list[i]? := by
    intro i
    simp only [View.get, MI.get, View.list, List.getElem?_take]
    split
    · rw [if_pos (by omega)]
    · rfl
  refine ⟨rfl, ⟨Nat.le_refl _, h⟩, ?_, hget, ?_, ?_, ?_, ?_⟩
  · intro s hs
    rw [hl] at hs
    refine ⟨?_, hs, h⟩
    simp only [View.list, MI.viewOf, MI.list, List.take_take]
    congr 1; omega
  · intro hn
    have hp : 0 < v.size := by rw [← hvl]; exact List.length_pos_iff.mpr hn
    constructor
    · rw [List.getLast?_eq_getElem?, hvl, ← hget]
      simp only [View.back, View.get]
      rw [if_pos hp, if_pos (by omega)]
    · rw [List.head?_eq_getElem?, ← hget]
      simp only [View.front, View.get, MI.front]
      rw [if_pos hp]
  · intro hn
    have hp : 0 < v.size := by rw [← hvl]; exact List.length_pos_iff.mpr hn
    refine ⟨{ v with size := v.size - 1 }, by simp [View.backPopped, hp], ⟨by simp; omega, h2⟩, ?_⟩
    simp only [View.list, List.dropLast_eq_take, List.length_take, List.take_take]
    congr 1; omega
  · intro he
    have : v.size = 0 := by rw [← hvl, he]; rfl
    simp [View.backPopped, this]
  · refine ⟨{ v.mi with sz := v.size }, ?_, ?_, rfl, rfl⟩
    · simp only [View.toMI, MI.resize, MI.capacity]
      rw [if_pos (by omega)]
    · simp only [MI.Ok, MI.capacity]; omega

/-- **C56 is false of the code** (with the checks of ReservedVector enabled): converting a multi-index to one of another,
sufficient capacity reads past the end of the shorter ones. -/
theorem C56_conversion_false :
    ¬ ∀ (n : Nat) (rv : MI), rv.Ok → rv.list.length ≤ n → n ≠ rv.capacity →
      Gives (rv.convert true n) n rv.list := by
  intro h
  obtain ⟨m, hm, -⟩ := h 3 ⟨[7, 0], 1⟩ (by unfold MI.Ok MI.capacity; decide) (by decide) (by decide)
  have : MI.convert true 3 ⟨[7, 0], 1⟩ = none := by decide
  rw [this] at hm
  simp at hm

/-- **C56, what holds**: the conversion keeps the entries if the checks are compiled out, or if the source has at least
`min(n,_n)` entries; a target that is too small is rejected. -/
theorem C56_conversion_partial (checked : Bool) (n : Nat) (rv : MI) (h : rv.Ok) :
    (rv.list.length ≤ n → (checked = true → min n rv.capacity ≤ rv.list.length) →
      Gives (rv.convert checked n) n rv.list) ∧
    (n < rv.list.length → rv.convert checked n = none) := by
  have hl := length_list rv h
  unfold MI.Ok MI.capacity at h
  rw [hl]
  simp only [MI.capacity]
  constructor
  · intro hn hc
    have key : ∀ k, k ≤ min n rv.cells.length →
        ∃ cs : List Nat, (List.range k).foldlM
          (fun (m : MI) i =>
            if checked && !(decide (i < rv.sz)) then none
            else some { m with cells := m.cells.set i (rv.cells.getD i 0) }) ⟨List.replicate n 0, rv.sz⟩
          = some ⟨cs, rv.sz⟩ ∧ cs.length = n ∧ ∀ i, i < k → cs[i]? = rv.cells[i]? := by
      intro k
      induction k with
      | zero => intro _; exact ⟨List.replicate n 0, rfl, by simp, fun i hi => by omega⟩
      | succ k ih =>
        intro hk
        obtain ⟨cs, e, hlen, hg⟩ := ih (by omega)
        refine ⟨cs.set k (rv.cells.getD k 0), ?_, by simpa using hlen, ?_⟩
        · rw [List.range_succ, List.foldlM_append, e]
          simp only [bind, Option.bind_some, List.foldlM_cons, List.foldlM_nil, pure]
          have : (checked && !(decide (k < rv.sz))) = false := by
            cases checked with
            | false => rfl
            | true =>
              have := hc rfl
              have : k < rv.sz := by omega
              simp [this]
          simp [this]
        · intro i hi
          by_cases hik : i = k
          · subst hik
            rw [List.getElem?_set_self (by omega)]
            have : i < rv.cells.length := by omega
            simp [this]
          · rw [List.getElem?_set_ne (by omega)]; exact hg i (by omega)
    obtain ⟨cs, e, hlen, hg⟩ := key _ (Nat.le_refl _)
    refine ⟨⟨cs, rv.sz⟩, ?_, ?_, ?_, ?_⟩
    · simp only [MI.convert, MI.resize, MI.empty, MI.capacity, List.length_replicate]
      rw [if_pos hn, if_pos hn]
      exact e
    · simp only [MI.Ok, MI.capacity]; omega
    · simpa [MI.capacity] using hlen
    · simp only [MI.list]
      apply List.ext_getElem?
      intro i
      rw [List.getElem?_take, List.getElem?_take]
      split
      · exact hg i (by omega)
      · rfl
  · intro hn
    simp only [MI.convert]
    rw [if_neg (by omega)]

/-- Non-trivial multi-indices meeting the hypotheses: room left, full, stale cells behind the size. -/
example : (MI.mk [4, 5, 9] 2).Ok ∧ (MI.mk [4, 5, 9] 2).list = [4, 5] ∧
    ((MI.mk [4, 5, 9] 2).pushFront 7).map MI.list = some [7, 4, 5] ∧
    ((MI.mk [4, 5, 9] 3).popFront).map MI.list = some [5, 9] ∧
    (MI.mk [4, 5, 9] 3).reverse.list = [9, 5, 4] ∧
    ((MI.mk [4, 5, 9] 2).join (MI.mk [6, 1, 1] 1)).map MI.list = some [4, 5, 6] ∧
    (MI.mk [4, 5, 9] 2).eq (MI.mk [4, 5, 0] 2) = true ∧
    ((MI.mk [4, 5, 9] 2).convert false 5).map MI.list = some [4, 5] ∧
    (View.mk (MI.mk [4, 5, 9] 2) 1).Ok := by
  refine ⟨by unfold MI.Ok MI.capacity; decide, by decide, by decide, by decide, by decide, by decide, by decide,
    by decide, by unfold View.Ok MI.Ok MI.capacity; decide⟩

end Verif
