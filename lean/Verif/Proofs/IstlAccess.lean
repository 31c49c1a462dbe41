import Verif.Spec.IstlAccess
set_option linter.unusedSectionVars false
/-
Helpers for the theorems about nested containers.
-/
namespace Verif.Istl

open Pattern

variable {K : Type} {n m d : Nat}

/-! ### Multi-indices -/

/-- The first number `i` of the recursion for a container with `d` levels of blocks. -/
def start (n d : Nat) : Int := if n = 1 then (d : Int) - 1 else d

def indexLength (n d : Nat) : Nat := if n = 1 then d else d + 1

/-- The position a multi-index of any length means. -/
def addr (n d : Nat) (ri : List Nat) : List Nat :=
  if n = 1 then (ri.take d).reverse ++ [0] else (ri.take (d + 1)).reverse

theorem start_succ (n d : Nat) : start n (d + 1) - 1 = start n d := by
  unfold start
  split <;> omega

theorem component_nat (ci : List Nat) (k : Nat) : component ci (k : Int) = ci[k]? := by
  unfold component
  rw [if_pos (by omega)]
  rfl

theorem take_succ_reverse (l : List Nat) (k x : Nat) (h : l[k]? = some x) : (l.take (k + 1)).reverse = x :: (l.take k).reverse := by
  rw [List.take_add_one, h]
  simp

theorem addr_succ {ri : List Nat} (h : indexLength n (d + 1) ≤ ri.length) :
    ∃ k, component ri (start n (d + 1)) = some k ∧ addr n (d + 1) ri = k :: addr n d ri := by
  unfold indexLength at h
  unfold start addr
  by_cases hn : n = 1
  · simp only [hn, if_true] at h ⊢
    have e : ((d + 1 : Nat) : Int) - 1 = (d : Nat) := by omega
    rw [e, component_nat]
    refine ⟨ri[d], List.getElem?_eq_getElem (by omega), ?_⟩
    rw [take_succ_reverse _ _ _ (List.getElem?_eq_getElem (by omega))]
    rfl
  · simp only [hn, if_false] at h ⊢
    rw [component_nat]
    refine ⟨ri[d + 1], List.getElem?_eq_getElem (by omega), ?_⟩
    rw [take_succ_reverse _ _ _ (List.getElem?_eq_getElem (by omega))]

theorem indexLength_succ {ri : List Nat} (h : indexLength n (d + 1) ≤ ri.length) : indexLength n d ≤ ri.length := by
  unfold indexLength at *
  split at h <;> simp_all <;> omega

theorem addr_eq {ri : List Nat} (h : ri.length = indexLength n d) : addr n d ri = address n d ri := by
  unfold indexLength at h
  unfold addr address
  split
  · rename_i hn
    rw [if_pos hn] at h
    rw [List.take_of_length_le (by omega), List.take_of_length_le (by simp; omega)]
  · rename_i hn
    rw [if_neg hn] at h
    rw [List.take_of_length_le (by omega)]

theorem start_eq {ri : List Nat} (h : ri.length = indexLength n d) : (ri.length : Int) - 1 = start n d := by
  unfold indexLength at h
  unfold start
  split at h <;> simp_all

/-! ### Vectors -/

/-- A reference is one to the number at position `p`. -/
def RefersV (d : Nat) (v : Vec K n d) (p : List Nat) (o : Option (Ref K (Vec K n d))) : Prop :=
  o.map Ref.value = entryV d v p ∧ ∀ r, o = some r → ∀ x p', entryV d (r.assign x) p' = if p' = p then some x else entryV d v p'

theorem inRange_some {k : Nat} (h : k < n) : inRange n k = some ⟨k, h⟩ := by
  unfold inRange
  rw [dif_pos h]

theorem inRange_none {k : Nat} (h : ¬ k < n) : inRange n k = none := by
  unfold inRange
  rw [dif_neg h]

theorem refersV_field (b : Vec K n 0) (k : Nat) :
    RefersV 0 b [k] ((inRange n k).map fun k => (⟨b.field k, setAt b k⟩ : Ref K (Vec K n 0))) := by
  by_cases h : k < n
  · rw [inRange_some h]
    refine ⟨?_, ?_⟩
    · simp [entryV, h]
    · intro r hr x p'
      simp only [Option.map_some, Option.some.injEq] at hr
      subst hr
      change entryV 0 (setAt (n := n) b ⟨k, h⟩ x) p' = _
      match p' with
      | [] => simp [entryV]
      | [k'] =>
        have e : ∀ b : Vec K n 0, entryV 0 b [k'] = if h : k' < n then some (b.field ⟨k', h⟩) else none := fun _ => rfl
        have e' : ∀ l, (setAt b ⟨k, h⟩ x).field l = if l = ⟨k, h⟩ then x else b.field l := fun _ => rfl
        simp only [e, e']
        by_cases hk : k' = k
        · subst hk; simp [h]
        · by_cases h' : k' < n
          · simp [h', hk]
          · simp [h', hk]
      | a :: a' :: p => simp [entryV]
  · rw [inRange_none h]
    refine ⟨?_, by simp⟩
    simp [entryV, h]

theorem refersV_block (b : Vec K n (d + 1)) (k : Nat) (p : List Nat) (o : Vec K n d → Option (Ref K (Vec K n d)))
    (h : ∀ c, b.blocks[k]? = some c → RefersV d c p (o c)) :
    RefersV (d + 1) b (k :: p) ((b.blocks[k]?).bind fun c => (o c).bind fun r =>
      some ⟨r.value, fun x => Vec.ofBlocks (b.blocks.set k (r.assign x))⟩) := by
  cases hc : b.blocks[k]? with
  | none => refine ⟨by simp [entryV, hc], by simp⟩
  | some c =>
    have hk : k < b.blocks.length := by
      by_contra h'
      rw [List.getElem?_eq_none (by omega)] at hc
      simp at hc
    obtain ⟨h1, h2⟩ := h c hc
    refine ⟨?_, ?_⟩
    · simp only [Option.bind_some, entryV, hc]
      rw [← h1]
      cases o c <;> rfl
    · intro r hr x p'
      simp only [Option.bind_some] at hr
      cases ho : o c with
      | none => rw [ho] at hr; simp at hr
      | some r' =>
        rw [ho] at hr
        simp only [Option.bind_some, Option.some.injEq] at hr
        subst hr
        match p' with
        | [] => simp [entryV]
        | k' :: p'' =>
          change ((b.blocks.set k (r'.assign x))[k']?).bind (fun c => entryV d c p'') = if k' :: p'' = k :: p then some x else (b.blocks[k']?).bind fun c => entryV d c p''
          by_cases hk' : k' = k
          · subst hk'
            rw [List.getElem?_set_self hk, hc, Option.bind_some, Option.bind_some, h2 r' ho x p'']
            by_cases hp : p'' = p <;> simp [hp]
          · rw [List.getElem?_set_ne (Ne.symm hk'), if_neg (by simp [hk'])]

theorem accessVector_refers (ci : List Nat) (v : Vec K n d) (h : indexLength n d ≤ ci.length) :
    RefersV d v (addr n d ci) (accessVector ci d v (start n d)) := by
  induction d with
  | zero =>
    unfold accessVector start addr
    by_cases hn : n = 1
    · rw [if_pos hn, if_pos hn, if_pos hn, if_pos (by simp)]
      exact refersV_field v 0
    · rw [if_neg hn, if_neg hn, if_neg hn, if_pos (by simp)]
      unfold indexLength at h
      rw [if_neg hn] at h
      have e : ci[0]? = some ci[0] := List.getElem?_eq_getElem (by omega)
      rw [take_succ_reverse ci 0 ci[0] e, e]
      have := refersV_field v ci[0]
      cases hk : inRange n ci[0] with
      | none => rw [hk] at this; simpa [hk] using this
      | some k => rw [hk] at this; simpa [hk] using this
  | succ d ih =>
    obtain ⟨k, h1, h2⟩ := addr_succ h
    unfold accessVector
    rw [h1, h2]
    have := refersV_block v k (addr n d ci) (fun c => accessVector ci d c (start n (d + 1) - 1)) (fun c _ => by
      rw [start_succ]
      exact ih c (indexLength_succ h))
    exact this

/-- The same with one index more than necessary for blocks of size 1. -/
theorem accessVector_one (ci : List Nat) (v : Vec K 1 d) (h : d < ci.length) :
    RefersV d v ((ci.drop 1).take d |>.reverse |> (· ++ [0])) (accessVector ci d v d) := by
  induction d with
  | zero =>
    unfold accessVector
    rw [if_pos rfl, if_pos (by simp)]
    simpa using refersV_field v 0
  | succ d ih =>
    have e : (ci.drop 1)[d]? = some ci[d + 1] := by
      rw [List.getElem?_drop, Nat.add_comm]
      exact List.getElem?_eq_getElem (by omega)
    unfold accessVector
    rw [component_nat, List.getElem?_eq_getElem (by omega)]
    rw [take_succ_reverse _ _ _ e]
    have := refersV_block v ci[d + 1] (((ci.drop 1).take d).reverse ++ [0]) (fun c => accessVector ci d c (((d + 1 : Nat) : Int) - 1)) (fun c _ => by
      have e : ((d + 1 : Nat) : Int) - 1 = (d : Nat) := by omega
      rw [e]
      exact ih c (by omega))
    exact this

theorem accessVector_none (ci : List Nat) (v : Vec K n d) (i : Int) (h : if n = 1 then i ≠ d ∧ i ≠ (d : Int) - 1 else i ≠ d) :
    accessVector ci d v i = none := by
  induction d generalizing i with
  | zero =>
    unfold accessVector
    by_cases hn : n = 1
    · rw [if_pos hn] at h ⊢
      rw [if_neg]
      rintro (h' | h')
      · exact h.2 (by omega)
      · exact h.1 (by omega)
    · rw [if_neg hn] at h ⊢
      rw [if_neg (by simpa using h)]
  | succ d ih =>
    unfold accessVector
    have : ∀ c : Vec K n d, accessVector ci d c (i - 1) = none := by
      intro c
      apply ih
      by_cases hn : n = 1
      · rw [if_pos hn] at h ⊢
        omega
      · rw [if_neg hn] at h ⊢
        omega
    cases component ci i with
    | none => rfl
    | some k =>
      change Option.bind (v.blocks[k]?) _ = none
      cases v.blocks[k]? with
      | none => rfl
      | some c => simp [this c]

/-! ### Matrices -/

theorem find_replace {B : Type} (row : List (Nat × B)) (l : Nat) (c : B) (l' : Nat) :
    find (replace row l c) l' = if l' = l then (find row l).map fun _ => c else find row l' := by
  induction row with
  | nil => simp [find, replace]
  | cons x xs ih =>
    unfold replace
    by_cases h : x.1 = l
    · rw [if_pos h]
      unfold find
      by_cases h' : l' = l
      · subst h'; simp [h]
      · simp [h, h', Ne.symm h']
    · rw [if_neg h]
      unfold find
      rw [ih]
      by_cases h' : l' = l
      · subst h'; simp [h]
      · simp [h']

/-- A reference is one to the number at position `p`, `q`. -/
def RefersM (d : Nat) (a : Mat K n m d) (p q : List Nat) (o : Option (Ref K (Mat K n m d))) : Prop :=
  o.map Ref.value = entryM d a p q ∧
    ∀ r, o = some r → ∀ x p' q', entryM d (r.assign x) p' q' = if p' = p ∧ q' = q then some x else entryM d a p' q'

theorem entryM_zero (b : Mat K n m 0) (p q : List Nat) (h : ¬ (p.length = 1 ∧ q.length = 1)) : entryM 0 b p q = none := by
  match p, q with
  | [], _ => rfl
  | [_], [] => rfl
  | [_], [_] => simp at h
  | [_], _ :: _ :: _ => rfl
  | _ :: _ :: _, _ => rfl

theorem entryM_one (b : Mat K n m 0) (k l : Nat) :
    entryM 0 b [k] [l] = if h : k < n ∧ l < m then some (b.field ⟨k, h.1⟩ ⟨l, h.2⟩) else none := rfl

theorem entryM_cons (b : Mat K n m (d + 1)) (k l : Nat) (p q : List Nat) :
    entryM (d + 1) b (k :: p) (l :: q) = (b.rows[k]?).bind fun row => (find row l).bind fun c => entryM d c p q := rfl

theorem entryM_nil_left (b : Mat K n m d) (q : List Nat) : entryM d b [] q = none := by
  cases d <;> rfl

theorem entryM_nil_right (b : Mat K n m d) (p : List Nat) : entryM d b p [] = none := by
  cases d with
  | zero => match p with
    | [] => rfl
    | [_] => rfl
    | _ :: _ :: _ => rfl
  | succ d => cases p <;> rfl

theorem singletons {p : List Nat} (h : p.length = 1) : ∃ k, p = [k] := List.length_eq_one_iff.1 h

theorem refersM_field (b : Mat K n m 0) (k l : Nat) : RefersM 0 b [k] [l] (entryRef b (some k) (some l)) := by
  have e : entryRef (n := n) (m := m) b (some k) (some l) =
      (inRange n k).bind fun k => (inRange m l).bind fun l => some ⟨b.field k l, setEntry b k l⟩ := rfl
  rw [e]
  by_cases hk : k < n
  · by_cases hl : l < m
    · rw [inRange_some hk, inRange_some hl]
      refine ⟨?_, ?_⟩
      · rw [entryM_one, dif_pos ⟨hk, hl⟩]; rfl
      · intro r hr x p' q'
        simp only [Option.bind_some, Option.some.injEq] at hr
        subst hr
        by_cases hh : p'.length = 1 ∧ q'.length = 1
        · obtain ⟨k', rfl⟩ := singletons hh.1
          obtain ⟨l', rfl⟩ := singletons hh.2
          rw [entryM_one, entryM_one]
          by_cases h' : k' < n ∧ l' < m
          · rw [dif_pos h', dif_pos h']
            have e' : ∀ k' l', (setEntry b ⟨k, hk⟩ ⟨l, hl⟩ x).field k' l' = if k' = ⟨k, hk⟩ ∧ l' = ⟨l, hl⟩ then x else b.field k' l' := fun _ _ => rfl
            rw [e']
            by_cases h3 : k' = k ∧ l' = l
            · obtain ⟨rfl, rfl⟩ := h3
              simp
            · rw [if_neg (by simpa using h3), if_neg (by simpa using h3)]
          · rw [dif_neg h', dif_neg h', if_neg]
            rintro ⟨h3, h4⟩
            simp only [List.cons.injEq, and_true] at h3 h4
            exact h' ⟨h3 ▸ hk, h4 ▸ hl⟩
        · rw [entryM_zero _ _ _ hh, entryM_zero _ _ _ hh, if_neg]
          rintro ⟨rfl, rfl⟩
          simp at hh
    · rw [inRange_some hk, inRange_none hl]
      refine ⟨?_, by simp⟩
      rw [entryM_one, dif_neg (by omega)]; rfl
  · rw [inRange_none hk]
    refine ⟨?_, by simp⟩
    rw [entryM_one, dif_neg (by omega)]; rfl

theorem set_get? {B : Type} (l : List B) (k : Nat) (x : B) (h : (l[k]?).isSome = true) (k' : Nat) :
    (l.set k x)[k']? = if k' = k then some x else l[k']? := by
  have hk : k < l.length := by
    by_contra h'
    rw [List.getElem?_eq_none (by omega)] at h
    simp at h
  by_cases h' : k' = k
  · subst h'; simp [hk]
  · rw [if_neg h', List.getElem?_set_ne (Ne.symm h')]

/-- The entry in a matrix one block of which has been replaced. -/
theorem entryM_set (b : Mat K n m (d + 1)) (k l : Nat) (row : List (Nat × Mat K n m d)) (c c' : Mat K n m d)
    (hrow : b.rows[k]? = some row) (hc : find row l = some c) (k' l' : Nat) (p q : List Nat) :
    entryM (d + 1) (Mat.ofRows (b.rows.set k (replace row l c'))) (k' :: p) (l' :: q) =
      if k' = k ∧ l' = l then entryM d c' p q else entryM (d + 1) b (k' :: p) (l' :: q) := by
  rw [entryM_cons, entryM_cons]
  change ((b.rows.set k (replace row l c'))[k']?).bind _ = _
  rw [set_get? _ _ _ (by rw [hrow]; rfl)]
  by_cases hk : k' = k
  · subst hk
    rw [if_pos rfl, Option.bind_some, find_replace]
    by_cases hl : l' = l
    · subst hl; simp [hc]
    · simp [hl, hrow]
  · simp [hk]

theorem refersM_block (b : Mat K n m (d + 1)) (k l : Nat) (p q : List Nat) (o : Mat K n m d → Option (Ref K (Mat K n m d)))
    (h : ∀ c, RefersM d c p q (o c)) :
    RefersM (d + 1) b (k :: p) (l :: q) ((b.rows[k]?).bind fun row => (find row l).bind fun c => (o c).bind fun r =>
      some ⟨r.value, fun x => Mat.ofRows (b.rows.set k (replace row l (r.assign x)))⟩) := by
  cases hrow : b.rows[k]? with
  | none => refine ⟨by simp [entryM_cons, hrow], by simp⟩
  | some row =>
    cases hc : find row l with
    | none => refine ⟨by simp [entryM_cons, hrow, hc], by simp [hc]⟩
    | some c =>
      obtain ⟨h1, h2⟩ := h c
      refine ⟨?_, ?_⟩
      · rw [entryM_cons, hrow, Option.bind_some, Option.bind_some, hc, Option.bind_some, Option.bind_some, ← h1]
        cases o c <;> rfl
      · intro r hr x p' q'
        rw [Option.bind_some, hc, Option.bind_some] at hr
        cases ho : o c with
        | none => rw [ho] at hr; simp at hr
        | some r' =>
          rw [ho] at hr
          simp only [Option.bind_some, Option.some.injEq] at hr
          subst hr
          change entryM (d + 1) (Mat.ofRows (b.rows.set k (replace row l (r'.assign x)))) p' q' = _
          match p', q' with
          | [], _ => rw [entryM_nil_left, entryM_nil_left]; simp
          | _ :: _, [] => rw [entryM_nil_right, entryM_nil_right]; simp
          | k' :: p'', l' :: q'' =>
            rw [entryM_set b k l row c _ hrow hc, h2 r' ho x]
            by_cases hh : k' = k ∧ l' = l
            · obtain ⟨rfl, rfl⟩ := hh
              rw [if_pos ⟨rfl, rfl⟩]
              by_cases h3 : p'' = p ∧ q'' = q
              · rw [if_pos h3, if_pos (by simp [h3])]
              · rw [if_neg h3, if_neg (by simpa using h3), entryM_cons, hrow, Option.bind_some, hc, Option.bind_some]
            · rw [if_neg hh, if_neg]
              rintro ⟨h3, h4⟩
              simp only [List.cons.injEq] at h3 h4
              exact hh ⟨h3.1, h4.1⟩

/-- What the innermost level does with the multi-index: the position in the block. -/
theorem addr_zero (ri : List Nat) (h : indexLength n 0 ≤ ri.length) :
    ∃ k, addr n 0 ri = [k] ∧ (n = 1 → k = 0) ∧ (n ≠ 1 → ri[0]? = some k) := by
  unfold addr
  unfold indexLength at h
  by_cases hn : n = 1
  · exact ⟨0, by simp [hn], fun _ => rfl, fun h => absurd hn h⟩
  · rw [if_neg hn] at h ⊢
    have e : ri[0]? = some ri[0] := List.getElem?_eq_getElem (by omega)
    exact ⟨ri[0], by rw [take_succ_reverse ri 0 _ e]; rfl, fun h => absurd h hn, fun _ => e⟩

theorem accessMatrix_refers (ri ci : List Nat) (a : Mat K n m d) (h : indexLength n d ≤ ri.length) (h' : indexLength m d ≤ ci.length) :
    RefersM d a (addr n d ri) (addr m d ci) (accessMatrix ri ci d a (start n d) (start m d)) := by
  induction d with
  | zero =>
    obtain ⟨k, e1, e2, e3⟩ := addr_zero ri h
    obtain ⟨l, e4, e5, e6⟩ := addr_zero ci h'
    rw [e1, e4]
    unfold accessMatrix start
    by_cases hn : n = 1
    · by_cases hm : m = 1
      · simp only [hn, hm, if_true]
        rw [if_pos (by simp), e2 hn, e5 hm]
        subst hn hm
        exact refersM_field a 0 0
      · simp only [if_pos hn, if_neg hm]
        rw [if_pos (by simp), e2 hn, e6 hm]
        exact refersM_field a 0 l
    · by_cases hm : m = 1
      · simp only [if_neg hn, if_pos hm]
        rw [if_pos (by simp), e3 hn, e5 hm]
        exact refersM_field a k 0
      · simp only [if_neg hn, if_neg hm]
        rw [if_pos (by simp), e3 hn, e6 hm]
        exact refersM_field a k l
  | succ d ih =>
    obtain ⟨k, h1, h2⟩ := addr_succ h
    obtain ⟨l, h3, h4⟩ := addr_succ h'
    unfold accessMatrix
    rw [h1, h2, h3, h4, start_succ, start_succ]
    exact refersM_block a k l _ _ (fun c => accessMatrix ri ci d c (start n d) (start m d))
      (fun c => ih c (indexLength_succ h) (indexLength_succ h'))

theorem accessMatrix_none (ri ci : List Nat) (a : Mat K n m d) (i j : Int) (h : i ≠ start n d ∨ j ≠ start m d) :
    accessMatrix ri ci d a i j = none := by
  induction d generalizing i j with
  | zero =>
    unfold accessMatrix
    unfold start at h
    by_cases hn : n = 1
    · by_cases hm : m = 1
      · rw [if_pos hn] at h ⊢
        rw [if_pos hm] at h ⊢
        rw [if_neg]
        rintro ⟨h1, h2⟩
        rcases h with h | h
        · exact h (by simp [h1])
        · exact h (by simp [h2])
      · rw [if_pos hn] at h ⊢
        rw [if_neg hm] at h ⊢
        rw [if_neg]
        rintro ⟨h1, h2⟩
        rcases h with h | h
        · exact h (by simp [h1])
        · exact h (by simp [h2])
    · by_cases hm : m = 1
      · rw [if_neg hn] at h ⊢
        rw [if_pos hm] at h ⊢
        rw [if_neg]
        rintro ⟨h1, h2⟩
        rcases h with h | h
        · exact h (by simp [h1])
        · exact h (by simp [h2])
      · rw [if_neg hn] at h ⊢
        rw [if_neg hm] at h ⊢
        rw [if_neg]
        rintro ⟨h1, h2⟩
        rcases h with h | h
        · exact h (by simp [h1])
        · exact h (by simp [h2])
  | succ d ih =>
    have hh : ∀ c : Mat K n m d, accessMatrix ri ci d c (i - 1) (j - 1) = none := by
      intro c
      apply ih
      have h1 := start_succ n d
      have h2 := start_succ m d
      rcases h with h | h
      · left; omega
      · right; omega
    unfold accessMatrix
    cases component ri i with
    | none => rfl
    | some k =>
      cases component ci j with
      | none => rfl
      | some l =>
        change Option.bind (a.rows[k]?) _ = none
        cases a.rows[k]? with
        | none => rfl
        | some row =>
          change Option.bind (find row l) _ = none
          cases find row l with
          | none => rfl
          | some c => simp [hh c]

/-! ### Rows -/

theorem mapM_row {B : Type} (f : B → Option B) (row : List (Nat × B)) (h : ∀ x ∈ row, (f x.2).isSome = true) :
    ∃ row', row.mapM (fun x => (f x.2).map fun c => (x.1, c)) = some row' ∧
      (∀ l, find row' l = (find row l).bind f) ∧ ∀ x' ∈ row', ∃ x ∈ row, f x.2 = some x'.2 := by
  induction row with
  | nil => exact ⟨[], rfl, fun _ => rfl, by simp⟩
  | cons x xs ih =>
    obtain ⟨row', h1, h2, h3⟩ := ih fun y hy => h y (List.mem_cons_of_mem _ hy)
    obtain ⟨c, hc⟩ := Option.isSome_iff_exists.1 (h x List.mem_cons_self)
    refine ⟨(x.1, c) :: row', by simp [List.mapM_cons, hc, h1], ?_, ?_⟩
    · intro l
      unfold find
      by_cases hx : x.1 = l
      · simp [hx, hc]
      · simp [hx, h2]
    · intro x' hx'
      rcases List.mem_cons.1 hx' with rfl | hx'
      · exact ⟨x, List.mem_cons_self, hc⟩
      · obtain ⟨y, hy, hy'⟩ := h3 x' hx'
        exact ⟨y, List.mem_cons_of_mem _ hy, hy'⟩

theorem find_mem {B : Type} (row : List (Nat × B)) (l : Nat) (c : B) (h : find row l = some c) : (l, c) ∈ row := by
  induction row with
  | nil => simp [find] at h
  | cons x xs ih =>
    unfold find at h
    by_cases hx : x.1 = l
    · rw [if_pos hx] at h
      simp only [Option.some.injEq] at h
      subst h hx
      exact List.mem_cons_self
    · rw [if_neg hx] at h
      exact List.mem_cons_of_mem _ (ih h)

/-- A map of a row of blocks changes the entries in that row of blocks. -/
theorem entryM_mapRow (b : Mat K n m (d + 1)) (k : Nat) (row row' : List (Nat × Mat K n m d)) (f : Mat K n m d → Option (Mat K n m d))
    (g : List Nat → List Nat → K → K) (hrow : b.rows[k]? = some row) (hf : ∀ l, find row' l = (find row l).bind f)
    (hg : ∀ x ∈ row, ∃ c', f x.2 = some c' ∧ ∀ p q, entryM d c' p q = (entryM d x.2 p q).map (g p q)) (k' l' : Nat) (p q : List Nat) :
    entryM (d + 1) (Mat.ofRows (b.rows.set k row')) (k' :: p) (l' :: q) =
      (entryM (d + 1) b (k' :: p) (l' :: q)).map fun x => if k' = k then g p q x else x := by
  rw [entryM_cons, entryM_cons]
  change ((b.rows.set k row')[k']?).bind _ = _
  rw [set_get? _ _ _ (by rw [hrow]; rfl)]
  by_cases hk : k' = k
  · subst hk
    rw [if_pos rfl, Option.bind_some, hf, hrow, Option.bind_some]
    cases hc : find row l' with
    | none => rfl
    | some c =>
      obtain ⟨c', h1, h2⟩ := hg _ (find_mem row l' c hc)
      simp only [Option.bind_some]
      simp only at h1 h2
      rw [h1]
      simp only [Option.bind_some, h2, if_true]
  · simp [hk]

theorem hasRow_cons (b : Mat K n m (d + 1)) (k : Nat) (p : List Nat) :
    HasRow (d + 1) b (k :: p) ↔ ∃ row, b.rows[k]? = some row ∧ ∀ x ∈ row, HasRow d x.2 p := Iff.rfl

theorem hasRow_ne_nil (b : Mat K n m d) (p : List Nat) (h : HasRow d b p) : p ≠ [] := by
  rintro rfl
  cases d <;> exact h

theorem hasRow_zero (b b' : Mat K n m 0) (p : List Nat) (h : HasRow 0 b p) : HasRow 0 b' p := by
  match p with
  | [] => exact h
  | [k] => exact h
  | _ :: _ :: _ => exact h

theorem hasRow_mapRow (b : Mat K n m (d + 1)) (k : Nat) (row row' : List (Nat × Mat K n m d)) (f : Mat K n m d → Option (Mat K n m d))
    (hrow : b.rows[k]? = some row) (hf : ∀ x' ∈ row', ∃ x ∈ row, f x.2 = some x'.2)
    (hg : ∀ x ∈ row, ∀ c', f x.2 = some c' → ∀ p, HasRow d x.2 p → HasRow d c' p) (p : List Nat) (h : HasRow (d + 1) b p) :
    HasRow (d + 1) (Mat.ofRows (b.rows.set k row')) p := by
  match p with
  | [] => exact h
  | k' :: p =>
    obtain ⟨r, h1, h2⟩ := (hasRow_cons _ _ _).1 h
    rw [hasRow_cons]
    change ∃ row, (b.rows.set k row')[k']? = some row ∧ _
    rw [set_get? _ _ _ (by rw [hrow]; rfl)]
    by_cases hk : k' = k
    · subst hk
      refine ⟨row', by simp, ?_⟩
      intro x' hx'
      obtain ⟨x, hx, hx''⟩ := hf x' hx'
      rw [hrow] at h1
      simp only [Option.some.injEq] at h1
      subst h1
      exact hg x hx _ hx'' p (h2 x hx)
    · exact ⟨r, by simpa [hk] using h1, h2⟩

/-- The effect of an operation on a matrix: it exists, changes the numbers in the pattern by `g`, and keeps the rows. -/
def Changes (d : Nat) (b : Mat K n m d) (o : Option (Mat K n m d)) (g : List Nat → List Nat → K → K) : Prop :=
  ∃ b', o = some b' ∧ (∀ p q, entryM d b' p q = (entryM d b p q).map (g p q)) ∧ ∀ p, HasRow d b p → HasRow d b' p

theorem clearMatrixRow_changes [Zero K] (ri : List Nat) (b : Mat K n m d) (h : indexLength n d ≤ ri.length) (hr : HasRow d b (addr n d ri)) :
    Changes d b (clearMatrixRow ri d b (start n d)) fun p _ x => if p = addr n d ri then 0 else x := by
  induction d with
  | zero =>
    obtain ⟨k, e1, e2, e3⟩ := addr_zero ri h
    rw [e1] at hr ⊢
    have hk : k < n := hr
    have e : clearMatrixRow ri 0 b (start n 0) = some (zeroRow b ⟨k, hk⟩) := by
      unfold clearMatrixRow start
      by_cases hn : n = 1
      · rw [if_pos hn, if_pos hn, if_pos (by simp)]
        have := e2 hn
        subst this
        rw [inRange_some hk]
        rfl
      · rw [if_neg hn, if_neg hn, if_pos (by simp), e3 hn]
        change Option.bind (inRange n k) _ = _
        rw [inRange_some hk]
        rfl
    refine ⟨_, e, ?_, fun p h => hasRow_zero _ _ _ h⟩
    intro p q
    by_cases hh : p.length = 1 ∧ q.length = 1
    · obtain ⟨k', rfl⟩ := singletons hh.1
      obtain ⟨l', rfl⟩ := singletons hh.2
      rw [entryM_one, entryM_one]
      by_cases h' : k' < n ∧ l' < m
      · rw [dif_pos h', dif_pos h']
        have e' : ∀ k' l', (zeroRow b ⟨k, hk⟩).field k' l' = if k' = ⟨k, hk⟩ then 0 else b.field k' l' := fun _ _ => rfl
        rw [e']
        simp only [Option.map_some, Fin.mk.injEq, List.cons.injEq, and_true]
      · rw [dif_neg h', dif_neg h']; rfl
    · rw [entryM_zero _ _ _ hh, entryM_zero _ _ _ hh]; rfl
  | succ d ih =>
    obtain ⟨k, h1, h2⟩ := addr_succ h
    rw [h2] at hr ⊢
    obtain ⟨row, hrow, hall⟩ := (hasRow_cons _ _ _).1 hr
    have hx : ∀ x ∈ row, Changes d x.2 (clearMatrixRow ri d x.2 (start n (d + 1) - 1)) fun p _ y => if p = addr n d ri then 0 else y := by
      intro x hx
      rw [start_succ]
      exact ih x.2 (indexLength_succ h) (hall x hx)
    obtain ⟨row', e1, e2, e3⟩ := mapM_row (fun c => clearMatrixRow ri d c (start n (d + 1) - 1)) row (by
      intro x h
      obtain ⟨b', hb, _⟩ := hx x h
      rw [hb]; rfl)
    refine ⟨Mat.ofRows (b.rows.set k row'), ?_, ?_, ?_⟩
    · unfold clearMatrixRow
      rw [h1]
      change Option.bind (b.rows[k]?) _ = _
      rw [hrow, Option.bind_some]
      change Option.bind (row.mapM _) _ = _
      rw [e1]
      rfl
    · intro p q
      match p, q with
      | [], _ => rw [entryM_nil_left, entryM_nil_left]; rfl
      | _ :: _, [] => rw [entryM_nil_right, entryM_nil_right]; rfl
      | k' :: p, l' :: q =>
        rw [entryM_mapRow b k row row' _ (fun p _ y => if p = addr n d ri then 0 else y) hrow e2 (by
          intro x h
          obtain ⟨b', hb, hb', _⟩ := hx x h
          exact ⟨b', hb, hb'⟩)]
        congr 1
        funext y
        by_cases hk : k' = k <;> by_cases hp : p = addr n d ri <;> simp [hk, hp]
    · intro p hp
      refine hasRow_mapRow b k row row' (fun c => clearMatrixRow ri d c (start n (d + 1) - 1)) hrow e3 ?_ p hp
      intro x h c' hc p hp
      obtain ⟨b', hb, _, hb'⟩ := hx x h
      rw [hb] at hc
      simp only [Option.some.injEq] at hc
      subst hc
      exact hb' p hp

theorem dropLast_cons_ne {p : List Nat} (k : Nat) (h : p ≠ []) : (k :: p).dropLast = k :: p.dropLast := by
  cases p with
  | nil => exact absurd rfl h
  | cons a p => rfl

theorem clearMatrixRowBlock_changes [Zero K] (ri : List Nat) (b : Mat K n n d) (h : indexLength n d ≤ ri.length) (hr : HasRow d b (addr n d ri)) :
    Changes d b (clearMatrixRowBlock ri d b (start n d)) fun p _ x => if p.dropLast = (addr n d ri).dropLast then 0 else x := by
  induction d with
  | zero =>
    obtain ⟨k, e1, e2, e3⟩ := addr_zero ri h
    rw [e1] at hr ⊢
    have e : clearMatrixRowBlock ri 0 b (start n 0) = some (Mat.ofField fun _ _ => 0) := by
      unfold clearMatrixRowBlock start
      by_cases hn : n = 1
      · rw [if_pos hn, if_pos hn, if_pos hn, if_pos (by simp)]
      · rw [if_neg hn, if_neg hn, if_pos (by simp)]
    refine ⟨_, e, ?_, fun p h => hasRow_zero _ _ _ h⟩
    intro p q
    by_cases hh : p.length = 1 ∧ q.length = 1
    · obtain ⟨k', rfl⟩ := singletons hh.1
      obtain ⟨l', rfl⟩ := singletons hh.2
      rw [entryM_one, entryM_one]
      by_cases h' : k' < n ∧ l' < n
      · rw [dif_pos h', dif_pos h']
        simp [Mat.ofField, Mat.field]
      · rw [dif_neg h', dif_neg h']; rfl
    · rw [entryM_zero _ _ _ hh, entryM_zero _ _ _ hh]; rfl
  | succ d ih =>
    obtain ⟨k, h1, h2⟩ := addr_succ h
    rw [h2] at hr ⊢
    obtain ⟨row, hrow, hall⟩ := (hasRow_cons _ _ _).1 hr
    have hx : ∀ x ∈ row, Changes d x.2 (clearMatrixRowBlock ri d x.2 (start n (d + 1) - 1))
        fun p _ y => if p.dropLast = (addr n d ri).dropLast then 0 else y := by
      intro x hx
      rw [start_succ]
      exact ih x.2 (indexLength_succ h) (hall x hx)
    obtain ⟨row', e1, e2, e3⟩ := mapM_row (fun c => clearMatrixRowBlock ri d c (start n (d + 1) - 1)) row (by
      intro x h
      obtain ⟨b', hb, _⟩ := hx x h
      rw [hb]; rfl)
    have hne : addr n d ri ≠ [] := by
      unfold addr
      split
      · simp
      · rename_i hn
        unfold indexLength at h
        rw [if_neg hn] at h
        intro h0
        have := congrArg List.length h0
        rw [List.length_reverse, List.length_take, List.length_nil] at this
        omega
    refine ⟨Mat.ofRows (b.rows.set k row'), ?_, ?_, ?_⟩
    · unfold clearMatrixRowBlock
      rw [h1]
      change Option.bind (b.rows[k]?) _ = _
      rw [hrow, Option.bind_some]
      change Option.bind (row.mapM _) _ = _
      rw [e1]
      rfl
    · intro p q
      match p, q with
      | [], _ => rw [entryM_nil_left, entryM_nil_left]; rfl
      | _ :: _, [] => rw [entryM_nil_right, entryM_nil_right]; rfl
      | k' :: p, l' :: q =>
        rw [entryM_mapRow b k row row' _ (fun p _ y => if p.dropLast = (addr n d ri).dropLast then 0 else y) hrow e2 (by
          intro x h
          obtain ⟨b', hb, hb', _⟩ := hx x h
          exact ⟨b', hb, hb'⟩)]
        by_cases hp0 : p = []
        · subst hp0
          have : entryM (d + 1) b [k'] (l' :: q) = none := by
            rw [entryM_cons]
            cases b.rows[k']? with
            | none => rfl
            | some r =>
              rw [Option.bind_some]
              cases find r l' with
              | none => rfl
              | some c => exact entryM_nil_left _ _
          rw [this]; rfl
        · congr 1
          funext y
          beta_reduce
          rw [dropLast_cons_ne _ hp0, dropLast_cons_ne _ hne]
          by_cases hk : k' = k <;> by_cases hp : p.dropLast = (addr n d ri).dropLast <;> simp [hk, hp]
    · intro p hp
      refine hasRow_mapRow b k row row' (fun c => clearMatrixRowBlock ri d c (start n (d + 1) - 1)) hrow e3 ?_ p hp
      intro x h c' hc p hp
      obtain ⟨b', hb, _, hb'⟩ := hx x h
      rw [hb] at hc
      simp only [Option.some.injEq] at hc
      subst hc
      exact hb' p hp

/-- Replacing one block. -/
theorem changes_block (b : Mat K n m (d + 1)) (k l : Nat) (row : List (Nat × Mat K n m d)) (c : Mat K n m d) (o : Option (Mat K n m d))
    (g : List Nat → List Nat → K → K) (hrow : b.rows[k]? = some row) (hc : find row l = some c) (h : Changes d c o g) :
    Changes (d + 1) b (o.bind fun c' => some (Mat.ofRows (b.rows.set k (replace row l c')))) fun p q x =>
      if p.head? = some k ∧ q.head? = some l then g p.tail q.tail x else x := by
  obtain ⟨c', rfl, h1, h2⟩ := h
  refine ⟨_, rfl, ?_, ?_⟩
  · intro p q
    match p, q with
    | [], _ => rw [entryM_nil_left, entryM_nil_left]; rfl
    | _ :: _, [] => rw [entryM_nil_right, entryM_nil_right]; rfl
    | k' :: p, l' :: q =>
      rw [entryM_set b k l row c c' hrow hc]
      by_cases hh : k' = k ∧ l' = l
      · obtain ⟨rfl, rfl⟩ := hh
        rw [if_pos ⟨rfl, rfl⟩, entryM_cons, hrow, Option.bind_some, hc, Option.bind_some, h1]
        simp
      · rw [if_neg hh]
        have : (fun x : K => if (k' :: p).head? = some k ∧ (l' :: q).head? = some l then g (k' :: p).tail (l' :: q).tail x else x) = id := by
          funext x
          rw [if_neg (by simpa using hh)]
          rfl
        beta_reduce
        rw [this, Option.map_id]
        rfl
  · intro p hp
    match p with
    | [] => exact hp
    | k' :: p =>
      obtain ⟨r, h3, h4⟩ := (hasRow_cons _ _ _).1 hp
      rw [hasRow_cons]
      change ∃ r, (b.rows.set k (replace row l c'))[k']? = some r ∧ _
      rw [set_get? _ _ _ (by rw [hrow]; rfl)]
      by_cases hk : k' = k
      · subst hk
        rw [hrow] at h3
        simp only [Option.some.injEq] at h3
        subst h3
        refine ⟨replace row l c', by rw [if_pos rfl], ?_⟩
        have : ∀ row : List (Nat × Mat K n m d), (∀ x ∈ row, HasRow d x.2 p) → find row l = some c →
            ∀ x ∈ replace row l c', HasRow d x.2 p := by
          intro row
          induction row with
          | nil => simp [replace]
          | cons y ys ih =>
            intro ha hf x hx
            unfold replace at hx
            unfold find at hf
            by_cases hy : y.1 = l
            · rw [if_pos hy] at hx hf
              simp only [Option.some.injEq] at hf
              rcases List.mem_cons.1 hx with rfl | hx
              · exact h2 p (hf ▸ ha y List.mem_cons_self)
              · exact ha x (List.mem_cons_of_mem _ hx)
            · rw [if_neg hy] at hx hf
              rcases List.mem_cons.1 hx with rfl | hx
              · exact ha x List.mem_cons_self
              · exact ih (fun z hz => ha z (List.mem_cons_of_mem _ hz)) hf x hx
        exact this row h4 hc
      · exact ⟨r, by simpa [hk] using h3, h4⟩

theorem changes_id (b : Mat K n m d) (g : List Nat → List Nat → K → K)
    (h : ∀ p q x, entryM d b p q = some x → g p q x = x) : Changes d b (some b) g := by
  refine ⟨b, rfl, ?_, fun _ h => h⟩
  intro p q
  cases hx : entryM d b p q with
  | none => rfl
  | some x => simp [h p q x hx]

theorem writeIfExists_changes (v : K) (ri : List Nat) (b : Mat K n n d) (h : indexLength n d ≤ ri.length) (hr : HasRow d b (addr n d ri)) :
    Changes d b (writeIfExists v ri ri d b (start n d) (start n d)) fun p q x => if p = addr n d ri ∧ q = addr n d ri then v else x := by
  induction d with
  | zero =>
    obtain ⟨k, e1, e2, e3⟩ := addr_zero ri h
    rw [e1] at hr ⊢
    have hk : k < n := hr
    have e : writeIfExists v ri ri 0 b (start n 0) (start n 0) = (entryRef b (some k) (some k)).map fun r => r.assign v := by
      unfold writeIfExists start
      by_cases hn : n = 1
      · rw [if_pos hn, if_pos hn, if_pos hn, if_pos (by simp), e2 hn]
      · rw [if_neg hn, if_neg hn, if_neg hn, if_pos (by simp), e3 hn]
    have e' : entryRef b (some k) (some k) = some ⟨b.field ⟨k, hk⟩ ⟨k, hk⟩, setEntry b ⟨k, hk⟩ ⟨k, hk⟩⟩ := by
      change Option.bind (inRange n k) _ = _
      rw [inRange_some hk]
      change Option.bind (inRange n k) _ = _
      rw [inRange_some hk]
      rfl
    refine ⟨setEntry b ⟨k, hk⟩ ⟨k, hk⟩ v, by rw [e, e']; rfl, ?_, fun p h => hasRow_zero _ _ _ h⟩
    intro p q
    have h2 := (refersM_field b k k).2 _ e' v p q
    change entryM 0 (setEntry b ⟨k, hk⟩ ⟨k, hk⟩ v : Mat K n n 0) p q = _ at h2
    rw [h2]
    by_cases hpq : p = [k] ∧ q = [k]
    · obtain ⟨rfl, rfl⟩ := hpq
      rw [entryM_one, dif_pos ⟨hk, hk⟩]
      simp
    · simp only [if_neg hpq]
      exact Option.map_id'.symm ▸ rfl
  | succ d ih =>
    obtain ⟨k, h1, h2⟩ := addr_succ h
    rw [h2] at hr ⊢
    obtain ⟨row, hrow, hall⟩ := (hasRow_cons _ _ _).1 hr
    unfold writeIfExists
    rw [h1]
    change Changes (d + 1) b (Option.bind (b.rows[k]?) _) _
    rw [hrow, Option.bind_some]
    cases hc : find row k with
    | none =>
      rw [if_neg (by simp)]
      apply changes_id
      intro p q x hx
      rw [if_neg]
      rintro ⟨rfl, rfl⟩
      rw [entryM_cons, hrow, Option.bind_some, hc] at hx
      simp at hx
    | some c =>
      rw [if_pos (by simp)]
      have := changes_block b k k row c _ _ hrow hc (ih c (indexLength_succ h) (hall _ (find_mem row k c hc)))
      rw [start_succ]
      obtain ⟨b', hb, h3, h4⟩ := this
      refine ⟨b', hb, ?_, h4⟩
      intro p q
      rw [h3]
      match p, q with
      | [], _ => rw [entryM_nil_left]; rfl
      | _ :: _, [] => rw [entryM_nil_right]; rfl
      | k' :: p, l' :: q =>
        congr 1
        funext x
        simp only [List.head?_cons, List.tail_cons, Option.some.injEq, List.cons.injEq]
        by_cases a1 : k' = k <;> by_cases a2 : l' = k <;> by_cases a3 : p = addr n d ri <;> by_cases a4 : q = addr n d ri <;>
          simp [a1, a2, a3, a4]

theorem writeIfExistsToBlock_changes (v : K) (ri : List Nat) (b : Mat K n n d) (h : indexLength n d ≤ ri.length)
    (hr : HasRow d b (addr n d ri)) :
    Changes d b (writeIfExistsToBlock v ri ri d b (start n d) (start n d))
      fun p q x => if p.dropLast = (addr n d ri).dropLast ∧ q = p then v else x := by
  induction d with
  | zero =>
    obtain ⟨k, e1, e2, e3⟩ := addr_zero ri h
    rw [e1] at hr ⊢
    have hk : k < n := hr
    have e : writeIfExistsToBlock v ri ri 0 b (start n 0) (start n 0) =
        some (Mat.ofField fun k l => if k.val = l.val then v else b.field k l) := by
      unfold writeIfExistsToBlock start
      by_cases hn : n = 1
      · rw [if_pos hn, if_pos hn, if_pos hn, if_pos (by simp)]
        subst hn
        have e0 : entryRef b (some 0) (some 0) = (inRange 1 0).bind fun k => (inRange 1 0).bind fun l => some ⟨b.field k l, setEntry b k l⟩ := rfl
        rw [e0, inRange_some (by omega), Option.bind_some, Option.bind_some, Option.map_some]
        congr 1
        change (fun k' l' => if k' = ⟨0, by omega⟩ ∧ l' = ⟨0, by omega⟩ then v else b.field k' l') =
          (fun k' l' => if k'.val = l'.val then v else b.field k' l')
        funext k l
        have h1 : k = ⟨0, by omega⟩ := Fin.ext (by omega)
        have h2 : l = ⟨0, by omega⟩ := Fin.ext (by omega)
        rw [if_pos ⟨h1, h2⟩, if_pos (by rw [h1, h2])]
      · rw [if_neg hn, if_neg hn, if_neg hn, if_pos (by simp)]
    refine ⟨_, e, ?_, fun p h => hasRow_zero _ _ _ h⟩
    intro p q
    by_cases hh : p.length = 1 ∧ q.length = 1
    · obtain ⟨k', rfl⟩ := singletons hh.1
      obtain ⟨l', rfl⟩ := singletons hh.2
      rw [entryM_one, entryM_one]
      by_cases h' : k' < n ∧ l' < n
      · rw [dif_pos h', dif_pos h']
        by_cases hkl : k' = l'
        · subst hkl; simp [Mat.ofField, Mat.field]
        · simp [hkl, Ne.symm hkl, Mat.ofField, Mat.field]
      · rw [dif_neg h', dif_neg h']; rfl
    · rw [entryM_zero _ _ _ hh, entryM_zero _ _ _ hh]; rfl
  | succ d ih =>
    obtain ⟨k, h1, h2⟩ := addr_succ h
    rw [h2] at hr ⊢
    obtain ⟨row, hrow, hall⟩ := (hasRow_cons _ _ _).1 hr
    have hne : addr n d ri ≠ [] := by
      unfold addr
      split
      · simp
      · rename_i hn
        unfold indexLength at h
        rw [if_neg hn] at h
        intro h0
        have := congrArg List.length h0
        rw [List.length_reverse, List.length_take, List.length_nil] at this
        omega
    have hnil : ∀ (k' l' : Nat) (q : List Nat), entryM (d + 1) b [k'] (l' :: q) = none := by
      intro k' l' q
      rw [entryM_cons]
      cases b.rows[k']? with
      | none => rfl
      | some r =>
        rw [Option.bind_some]
        cases find r l' with
        | none => rfl
        | some c => exact entryM_nil_left _ _
    unfold writeIfExistsToBlock
    rw [h1]
    change Changes (d + 1) b (Option.bind (b.rows[k]?) _) _
    rw [hrow, Option.bind_some]
    cases hc : find row k with
    | none =>
      rw [if_neg (by simp)]
      apply changes_id
      intro p q x hx
      rw [if_neg]
      rintro ⟨hp, rfl⟩
      match q with
      | [] => rw [entryM_nil_left] at hx; simp at hx
      | k' :: q =>
        by_cases hq : q = []
        · subst hq; rw [hnil] at hx; simp at hx
        · rw [dropLast_cons_ne _ hq, dropLast_cons_ne _ hne] at hp
          simp only [List.cons.injEq] at hp
          obtain ⟨rfl, _⟩ := hp
          rw [entryM_cons, hrow, Option.bind_some, hc] at hx
          simp at hx
    | some c =>
      rw [if_pos (by simp)]
      have := changes_block b k k row c _ _ hrow hc (ih c (indexLength_succ h) (hall _ (find_mem row k c hc)))
      rw [start_succ]
      obtain ⟨b', hb, h3, h4⟩ := this
      refine ⟨b', hb, ?_, h4⟩
      intro p q
      rw [h3]
      match p, q with
      | [], _ => rw [entryM_nil_left]; rfl
      | _ :: _, [] => rw [entryM_nil_right]; rfl
      | k' :: p, l' :: q =>
        by_cases hp0 : p = []
        · subst hp0; rw [hnil]; rfl
        · congr 1
          funext x
          beta_reduce
          rw [dropLast_cons_ne _ hp0, dropLast_cons_ne _ hne]
          simp only [List.head?_cons, List.tail_cons, Option.some.injEq, List.cons.injEq]
          by_cases a1 : k' = k
          · subst a1
            by_cases a2 : l' = k' <;> by_cases a3 : p.dropLast = (addr n d ri).dropLast <;> by_cases a4 : q = p <;>
              simp [a2, a3, a4]
          · simp [a1]

end Verif.Istl
