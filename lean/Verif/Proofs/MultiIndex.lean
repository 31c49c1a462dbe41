import Verif.Spec.MultiIndex
/-
Helper lemmas for multi-indices.
-/
namespace Verif.MIndex

theorem length_list (m : MI) (h : m.Ok) : m.list.length = m.sz := by
  unfold MI.Ok MI.capacity at h
  simp [MI.list, Nat.min_eq_left h]

theorem copyUp_length : ∀ (cnt src dst : Nat) (a : List Nat), (copyUp a src dst cnt).length = a.length := by
  intro cnt
  induction cnt with
  | zero => intros; rfl
  | succ c ih => intro src dst a; simp [copyUp, ih]

theorem copyUp_get : ∀ (cnt src dst : Nat) (a : List Nat), dst < src → src + cnt ≤ a.length →
    ∀ i, (copyUp a src dst cnt)[i]? = if dst ≤ i ∧ i < dst + cnt then a[src + (i - dst)]? else a[i]? := by
  intro cnt
  induction cnt with
  | zero => intro src dst a _ _ i; simp [copyUp]; omega
  | succ c ih =>
    intro src dst a hlt hlen i
    simp only [copyUp]
    rw [ih _ _ _ (by omega) (by simp; omega)]
    by_cases h1 : i = dst
    · subst h1
      have e : src < a.length := by omega
      rw [if_neg (by omega), if_pos (by omega), List.getElem?_set_self (by omega)]
      simp [e]
    · by_cases h2 : dst + 1 ≤ i ∧ i < dst + 1 + c
      · rw [if_pos h2, if_pos (by omega), List.getElem?_set_ne (by omega)]
        congr 1; omega
      · rw [if_neg h2, if_neg (by omega), List.getElem?_set_ne (by omega)]

theorem shiftBackward_length : ∀ (cnt : Nat) (a : List Nat), (shiftBackward a cnt).length = a.length := by
  intro cnt
  induction cnt with
  | zero => intros; rfl
  | succ c ih => intro a; simp [shiftBackward, ih]

theorem shiftBackward_get : ∀ (cnt : Nat) (a : List Nat), cnt < a.length →
    ∀ i, (shiftBackward a cnt)[i]? = if 1 ≤ i ∧ i ≤ cnt then a[i - 1]? else a[i]? := by
  intro cnt
  induction cnt with
  | zero => intro a _ i; simp only [shiftBackward]; rw [if_neg (by omega)]
  | succ c ih =>
    intro a hlen i
    simp only [shiftBackward]
    rw [ih _ (by simp; omega)]
    by_cases h1 : i = c + 1
    · subst h1
      rw [if_neg (by omega), if_pos (by omega), List.getElem?_set_self hlen]
      have e : c < a.length := by omega
      simp [e]
    · by_cases h2 : 1 ≤ i ∧ i ≤ c
      · rw [if_pos h2, if_pos (by omega), List.getElem?_set_ne (by omega)]
      · rw [if_neg h2, if_neg (by omega), List.getElem?_set_ne (by omega)]

theorem copyInto_length : ∀ (xs : List Nat) (a : List Nat) (pos : Nat), (copyInto a pos xs).length = a.length := by
  intro xs
  induction xs with
  | nil => intros; rfl
  | cons x xs ih => intro a pos; simp [copyInto, ih]

theorem copyInto_get : ∀ (xs : List Nat) (a : List Nat) (pos : Nat), pos + xs.length ≤ a.length →
    ∀ i, (copyInto a pos xs)[i]? = if pos ≤ i ∧ i < pos + xs.length then xs[i - pos]? else a[i]? := by
  intro xs
  induction xs with
  | nil => intro a pos _ i; simp [copyInto]; omega
  | cons x xs ih =>
    intro a pos h i
    simp only [List.length_cons] at h
    simp only [copyInto]
    rw [ih _ _ (by simp; omega)]
    simp only [List.length_cons]
    by_cases h1 : i = pos
    · subst h1
      rw [if_neg (by omega), if_pos (by omega), List.getElem?_set_self (by omega)]
      simp
    · by_cases h2 : pos + 1 ≤ i ∧ i < pos + 1 + xs.length
      · rw [if_pos h2, if_pos (by omega)]
        have : i - pos = (i - (pos + 1)) + 1 := by omega
        rw [this, List.getElem?_cons_succ]
      · rw [if_neg h2, if_neg (by omega), List.getElem?_set_ne (by omega)]

theorem fun_aux_length : ∀ (rest first : Nat) (a : List Nat),
    (reverseRange.fun_aux a first rest).length = a.length := by
  intro rest
  induction rest using Nat.strongRecOn with
  | _ rest ih =>
    intro first a
    match rest, ih with
    | 0, _ => rfl
    | 1, _ => simp [reverseRange.fun_aux]
    | r + 2, ih => simp [reverseRange.fun_aux, ih r (by omega)]

theorem fun_aux_get : ∀ (rest first : Nat) (a : List Nat), first + rest < a.length →
    ∀ i, (reverseRange.fun_aux a first rest)[i]? =
      if first ≤ i ∧ i ≤ first + rest then a[first + (first + rest - i)]? else a[i]? := by
  intro rest
  induction rest using Nat.strongRecOn with
  | _ rest ih =>
    intro first a hlen i
    match rest, ih, hlen with
    | 0, _, hlen =>
      simp only [reverseRange.fun_aux]
      split
      · congr 1; omega
      · rfl
    | 1, _, hlen =>
      simp only [reverseRange.fun_aux]
      have e0 : first < a.length := by omega
      by_cases h1 : i = first + 1
      · subst h1
        rw [if_pos (by omega), List.getElem?_set_self (by simpa using hlen)]
        simp [e0]
      · rw [List.getElem?_set_ne (by omega)]
        by_cases h2 : i = first
        · subst h2
          rw [if_pos (by omega), List.getElem?_set_self (by omega)]
          simp [hlen]
        · rw [List.getElem?_set_ne (by omega), if_neg (by omega)]
    | r + 2, ih, hlen =>
      simp only [reverseRange.fun_aux]
      rw [ih r (by omega) _ _ (by simp; omega)]
      have e0 : first < a.length := by omega
      by_cases h1 : i = first + r + 2
      · subst h1
        rw [if_neg (by omega), if_pos (by omega), List.getElem?_set_self (by simp; omega)]
        have : first + (first + (r + 2) - (first + r + 2)) = first := by omega
        rw [this]
        simp [e0]
      · by_cases h2 : i = first
        · subst h2
          rw [if_neg (by omega), if_pos (by omega), List.getElem?_set_ne (by omega),
            List.getElem?_set_self (by omega)]
          have : i + (i + (r + 2) - i) = i + r + 2 := by omega
          rw [this]
          have e : i + r + 2 < a.length := by omega
          simp [e]
        · by_cases h3 : first + 1 ≤ i ∧ i ≤ first + 1 + r
          · rw [if_pos h3, if_pos (by omega), List.getElem?_set_ne (by omega), List.getElem?_set_ne (by omega)]
            congr 1; omega
          · rw [if_neg h3, if_neg (by omega), List.getElem?_set_ne (by omega), List.getElem?_set_ne (by omega)]

end Verif.MIndex
