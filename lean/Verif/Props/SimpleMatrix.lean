import Verif.Proofs.SimpleMatrix

/-!
Properties C03, C04, C05, C52 (simple matrix backends).
-/
namespace Verif
open SimpleMatrix ListAux

theorem inPattern_iff (P : List (List Nat)) (r c : Nat) : InPattern P r c ↔ c ∈ srow P r :=
  (mem_srow P r c).symm

/-- **C03 (own cells).** A CSR matrix allocated from any pattern (every row any set of columns, in
any iteration order) maps every pattern entry to a cell inside the data array, and
different entries to different cells; there are exactly as many cells as pattern entries. This
remains so after any history of modifications of pattern entries. -/
theorem C03_pattern_entries_have_own_cells {α : Type} [Semiring α] (cols : Nat) (P : List (List Nat))
    (hP : ∀ row ∈ P, row.Nodup) (ops : List (Op α)) (hops : ∀ op ∈ ops, op.Within (InPattern P)) :
    ∃ A0 A, allocate P.length cols P (0 : α) = some A0 ∧ ops.foldlM Csr.step A0 = some A ∧
      (∀ r c, InPattern P r c → ∃ pos, A.find r c = some pos ∧ pos < A.data.length) ∧
      (∀ r c r' c' pos, InPattern P r c → InPattern P r' c' → A.find r c = some pos →
        A.find r' c' = some pos → r = r' ∧ c = c') ∧
      (∀ pos, pos < A.data.length → ∃ r c, InPattern P r c ∧ A.find r c = some pos) := by
  have hops' : ∀ op ∈ ops, op.Within fun r c => c ∈ srow P r := by
    simpa only [← inPattern_iff] using hops
  obtain ⟨A0, e0, i0⟩ := CInv.alloc (α := α) cols P
  obtain ⟨A, e1, i1⟩ := i0.steps hP ops hops'
  have hlen : A.data.length = pre (srow P) P.length := by rw [i1.hdata, length_flatMap, pre_map]
  refine ⟨A0, A, e0, e1, ?_, ?_, ?_⟩
  · intro r c h
    rw [inPattern_iff] at h
    exact ⟨_, i1.find_mem (row_lt_of_mem h) h, by
      rw [hlen]; exact pre_add_lt _ (row_lt_of_mem h) (lb_mem_lt h)⟩
  · intro r c r' c' pos h h' e e'
    rw [inPattern_iff] at h h'
    rw [i1.find_mem (row_lt_of_mem h) h] at e
    rw [i1.find_mem (row_lt_of_mem h') h'] at e'
    obtain ⟨rfl, hk⟩ := block_inj (srow P) (lb_mem_lt h) (lb_mem_lt h')
      ((Option.some.inj e).trans (Option.some.inj e').symm)
    refine ⟨rfl, ?_⟩
    have h1 := lb_mem (srow_sorted P hP r) h
    have h2 := lb_mem (srow_sorted P hP r) h'
    rw [hk] at h1
    rw [h1] at h2
    exact Option.some.inj h2
  · intro pos hpos
    rw [hlen] at hpos
    obtain ⟨r, k, hr, hk, rfl⟩ := exists_block (srow P) _ pos hpos
    have hm : (srow P r)[k] ∈ srow P r := List.getElem_mem hk
    refine ⟨r, (srow P r)[k], (inPattern_iff _ _ _).2 hm, ?_⟩
    rw [i1.find_mem hr hm]
    congr 2
    -- both positions carry the same column of a strictly sorted row
    have h1 := lb_mem (srow_sorted P hP r) hm
    have h2 := lb_mem_lt hm
    rw [List.getElem?_eq_getElem h2] at h1
    have hn : (srow P r).Nodup := (srow_sorted P hP r).imp (fun h => Nat.ne_of_lt h)
    exact (hn.getElem_inj_iff).1 (Option.some.inj h1)

/-- **C03 (read after write).** After any history of modifications every pattern entry has exactly
the value that the same history gives to a mathematical matrix. -/
theorem C03_reads_return_last_writes {α : Type} [Semiring α] (cols : Nat) (P : List (List Nat))
    (hP : ∀ row ∈ P, row.Nodup) (ops : List (Op α)) (hops : ∀ op ∈ ops, op.Within (InPattern P)) :
    ∃ A0 A, allocate P.length cols P (0 : α) = some A0 ∧ ops.foldlM Csr.step A0 = some A ∧
      ∀ r c, InPattern P r c → A.get r c = some (ops.foldl specStep (fun _ _ => 0) r c) := by
  have hops' : ∀ op ∈ ops, op.Within fun r c => c ∈ srow P r := by
    simpa only [← inPattern_iff] using hops
  obtain ⟨A0, e0, i0⟩ := CInv.alloc (α := α) cols P
  obtain ⟨A, e1, i1⟩ := i0.steps hP ops hops'
  refine ⟨A0, A, e0, e1, ?_⟩
  intro r c h
  rw [inPattern_iff] at h
  exact i1.get_mem hP (row_lt_of_mem h) h

/-- The hypotheses are met, e.g., by the 3x3 matrix of the class documentation. -/
example : (∀ row ∈ [[2, 0], [2], [1, 0, 2]], row.Nodup) ∧
    (∀ op ∈ [Op.write 0 2 (2 : Int), .add 2 1 5, .clearRow 2 1],
      op.Within (InPattern [[2, 0], [2], [1, 0, 2]])) := by
  refine ⟨by decide, ?_⟩
  simp [Op.Within, InPattern]

/-- **C04 is false of the code.** With the pattern {(0,2)} the access to the absent entry (0,1)
passes the assertion and yields the cell of the entry (0,2). -/
theorem C04_absent_access_detected_false :
    ∃ (P : List (List Nat)) (A : Csr Int), allocate P.length 3 P 0 = some A ∧
      ¬ InPattern P 0 1 ∧ InPattern P 0 2 ∧ A.find 0 1 = A.find 0 2 ∧ (A.find 0 1).isSome = true := by
  refine ⟨[[2]], _, rfl, ?_, ?_, ?_, ?_⟩
  · simp [InPattern]
  · simp [InPattern]
  · simp [Csr.find, lowerBoundIdx, offsets]
  · simp [Csr.find, lowerBoundIdx, offsets]

/-- **C04, what the assertion does detect.** The access to (r,c) is rejected exactly if row r has no
pattern column that is `c` or larger; otherwise it yields the cell of the smallest such column. -/
theorem C04_absent_access_detected_partial {α : Type} [Semiring α] (cols : Nat) (P : List (List Nat))
    (hP : ∀ row ∈ P, row.Nodup) :
    ∃ A, allocate P.length cols P (0 : α) = some A ∧
      ∀ r c, r < P.length →
        (A.find r c = none ↔ ∀ c', InPattern P r c' → c' < c) ∧
        (∀ c', InPattern P r c' → c ≤ c' → (∀ c'', InPattern P r c'' → c ≤ c'' → c' ≤ c'') →
          A.find r c = A.find r c') := by
  obtain ⟨A, e0, i0⟩ := CInv.alloc (α := α) cols P
  refine ⟨A, e0, ?_⟩
  intro r c hr
  constructor
  · rw [i0.find_eq hr]
    have := lb_lt_iff (srow P r) c
    constructor
    · intro h c' hc'
      rw [inPattern_iff] at hc'
      by_contra hlt
      rw [if_pos (this.2 ⟨c', hc', by omega⟩)] at h
      simp at h
    · intro h
      rw [if_neg]
      intro hlt
      obtain ⟨x, hx, hxc⟩ := this.1 hlt
      have := h x ((inPattern_iff _ _ _).2 hx)
      omega
  · intro c' hc' hle hmin
    rw [inPattern_iff] at hc'
    have key : ∀ l : List Nat, c' ∈ l → (∀ c'' ∈ l, c ≤ c'' → c' ≤ c'') →
        lowerBoundIdx c l = lowerBoundIdx c' l := by
      intro l
      induction l with
      | nil => simp
      | cons k ks ih =>
        intro hm hmin
        simp only [lowerBoundIdx]
        have h0 := hmin k (by simp)
        by_cases hk : k < c
        · have hk' : k < c' := by omega
          have hm' : c' ∈ ks := by
            rcases List.mem_cons.1 hm with h | h
            · omega
            · exact h
          rw [if_pos hk, if_pos hk', ih hm' (fun c'' h => hmin c'' (by simp [h]))]
        · rw [if_neg hk, if_neg (by omega)]
    have h1 := key (srow P r) hc' (fun c'' h => hmin c'' ((inPattern_iff _ _ _).2 h))
    rw [i0.find_eq hr, i0.find_eq hr, h1]

example : (∀ row ∈ [[4, 2], [0]], row.Nodup) ∧ InPattern [[4, 2], [0]] 0 2 ∧
    ¬ InPattern [[4, 2], [0]] 0 3 := by
  refine ⟨by decide, ?_, ?_⟩ <;> simp [InPattern]

/-- **C05 (CSR).** After any history of modifications of pattern entries `mv` and `usmv` compute the
matrix-vector products of the mathematical matrix resulting from the same history, and size
mismatches are rejected. -/
theorem C05_csr_products {α : Type} [Semiring α] (cols : Nat) (P : List (List Nat))
    (hP : ∀ row ∈ P, row.Nodup) (hPc : ∀ row ∈ P, ∀ c ∈ row, c < cols)
    (ops : List (Op α)) (hops : ∀ op ∈ ops, op.Within (InPattern P)) :
    ∃ A0 A, allocate P.length cols P (0 : α) = some A0 ∧ ops.foldlM Csr.step A0 = some A ∧
      ∀ x y : List α,
        (x.length = cols ∧ y.length = P.length →
          A.mv x y = some ((List.range P.length).map fun r =>
            specMv cols (ops.foldl specStep fun _ _ => 0) (fun c => x[c]?.getD 0) r) ∧
          ∀ a, A.usmv a x y = some ((List.range P.length).map fun r => y[r]?.getD 0 +
            a * specMv cols (ops.foldl specStep fun _ _ => 0) (fun c => x[c]?.getD 0) r)) ∧
        (¬ (x.length = cols ∧ y.length = P.length) → A.mv x y = none ∧ ∀ a, A.usmv a x y = none) := by
  have hops' : ∀ op ∈ ops, op.Within fun r c => c ∈ srow P r := by
    simpa only [← inPattern_iff] using hops
  obtain ⟨A0, e0, i0⟩ := CInv.alloc (α := α) cols P
  obtain ⟨A, e1, i1⟩ := i0.steps hP ops hops'
  refine ⟨A0, A, e0, e1, ?_⟩
  intro x y
  constructor
  · rintro ⟨hx, hy⟩
    have hc : y.length = A.rows ∧ x.length = A.cols := ⟨by rw [i1.hrows, hy], by rw [i1.hcols, hx]⟩
    constructor
    · rw [Csr.mv, if_pos hc, i1.hrows]
      exact mapM_range _ _ _ (fun r hr => i1.rowProduct hP hPc x hx hr)
    · intro a
      rw [Csr.usmv, if_pos hc, i1.hrows]
      apply mapM_range
      intro r hr
      rw [i1.rowProduct hP hPc x hx hr, List.getElem?_eq_getElem (by omega)]
      simp
  · intro h
    have hc : ¬ (y.length = A.rows ∧ x.length = A.cols) := by
      rw [i1.hrows, i1.hcols]; tauto
    exact ⟨by simp [Csr.mv, if_neg hc], fun a => by simp [Csr.usmv, if_neg hc]⟩

/-- **C05 (dense).** The same for the dense backend, for any history of modifications of entries
inside the matrix. -/
theorem C05_dense_products {α : Type} [Semiring α] (rows cols : Nat)
    (ops : List (Op α)) (hops : ∀ op ∈ ops, op.Within fun r c => r < rows ∧ c < cols) :
    ∃ A, ops.foldlM Dense.step (Dense.new rows cols (0 : α)) = some A ∧
      (∀ r c, r < rows → c < cols → A.get r c = some (ops.foldl specStep (fun _ _ => 0) r c)) ∧
      ∀ x y : List α, x.length = cols → y.length = rows →
        A.mv x y = some ((List.range rows).map fun r =>
          specMv cols (ops.foldl specStep fun _ _ => 0) (fun c => x[c]?.getD 0) r) ∧
        ∀ a, A.usmv a x y = some ((List.range rows).map fun r => y[r]?.getD 0 +
          a * specMv cols (ops.foldl specStep fun _ _ => 0) (fun c => x[c]?.getD 0) r) := by
  obtain ⟨A, e1, i1⟩ := (DInv.new (α := α) rows cols).steps ops hops
  refine ⟨A, e1, fun r c hr hc => i1.get hr hc, ?_⟩
  intro x y hx hy
  have hb : ∀ r, r < rows → (r + 1) * A.cols ≤ A.container.length ∧ A.cols ≤ x.length := by
    intro r hr
    refine ⟨by rw [i1.length, i1.hcols]; exact Nat.mul_le_mul_right _ hr, by rw [i1.hcols, hx]⟩
  constructor
  · simp only [Dense.mv, hy]
    apply mapM_range
    intro r hr
    rw [if_pos (hb r hr), i1.row x hx hr]
  · intro a
    simp only [Dense.usmv, hy]
    apply mapM_range
    intro r hr
    rw [if_pos (hb r hr), i1.row x hx hr, List.getElem?_eq_getElem (by omega)]
    simp

/-- **C05 (agreement).** The same history of modifications of pattern entries on both backends
yields matrices with the same products; the dense matrix is zero outside of the pattern. -/
theorem C05_csr_agrees_with_dense {α : Type} [Semiring α] (cols : Nat) (P : List (List Nat))
    (hP : ∀ row ∈ P, row.Nodup) (hPc : ∀ row ∈ P, ∀ c ∈ row, c < cols)
    (ops : List (Op α)) (hops : ∀ op ∈ ops, op.Within (InPattern P)) :
    ∃ A0 A D, allocate P.length cols P (0 : α) = some A0 ∧ ops.foldlM Csr.step A0 = some A ∧
      ops.foldlM Dense.step (Dense.new P.length cols (0 : α)) = some D ∧
      (∀ r c, InPattern P r c → A.get r c = D.get r c) ∧
      (∀ r c, r < P.length → c < cols → ¬ InPattern P r c → D.get r c = some 0) ∧
      ∀ x y : List α, x.length = cols → y.length = P.length →
        A.mv x y = D.mv x y ∧ ∀ a, A.usmv a x y = D.usmv a x y := by
  obtain ⟨A0, A, e0, e1, h1⟩ := C05_csr_products cols P hP hPc ops hops
  obtain ⟨A0', A', e0', e1', h1'⟩ := C03_reads_return_last_writes cols P hP ops hops
  rw [e0] at e0'; cases e0'
  rw [e1] at e1'; cases e1'
  have hin : ∀ r c, InPattern P r c → r < P.length ∧ c < cols := by
    rintro r c ⟨row, h, hc⟩
    exact ⟨(List.getElem?_eq_some_iff.1 h).1, hPc row (List.mem_of_getElem? h) c hc⟩
  obtain ⟨D, e2, g2, h2⟩ := C05_dense_products P.length cols ops (by
    intro op ho
    have := hops op ho
    cases op <;> simp only [Op.Within] at this ⊢ <;> exact hin _ _ this)
  refine ⟨A0, A, D, e0, e1, e2, ?_, ?_, ?_⟩
  · intro r c h
    rw [h1' r c h, g2 r c (hin r c h).1 (hin r c h).2]
  · intro r c hr hc h
    rw [g2 r c hr hc, specStep_zero_outside (InPattern P) ops hops _ (fun _ _ _ => rfl) r c h]
  · intro x y hx hy
    have q1 := (h1 x y).1 ⟨hx, hy⟩
    have q2 := h2 x y hx hy
    exact ⟨q1.1.trans q2.1.symm, fun a => (q1.2 a).trans (q2.2 a).symm⟩

/-- **C05 (clear_row).** `clear_row(i,d)` on a CSR matrix in any reachable state with the diagonal
entry in the pattern: row `i` becomes zero with `d` on the diagonal, other rows keep their values. -/
theorem C05_clear_row {α : Type} [Semiring α] (cols : Nat) (P : List (List Nat))
    (hP : ∀ row ∈ P, row.Nodup) (ops : List (Op α)) (hops : ∀ op ∈ ops, op.Within (InPattern P))
    (i : Nat) (d : α) (hi : InPattern P i i) :
    ∃ A0 A A', allocate P.length cols P (0 : α) = some A0 ∧ ops.foldlM Csr.step A0 = some A ∧
      A.clearRow i d = some A' ∧
      ∀ r c, InPattern P r c → A'.get r c =
        if r = i then some (if c = i then d else 0) else A.get r c := by
  have hops' : ∀ op ∈ ops, op.Within fun r c => c ∈ srow P r := by
    simpa only [← inPattern_iff] using hops
  obtain ⟨A0, e0, i0⟩ := CInv.alloc (α := α) cols P
  obtain ⟨A, e1, i1⟩ := i0.steps hP ops hops'
  obtain ⟨A', e2, i2⟩ := i1.step hP (.clearRow i d) ((inPattern_iff _ _ _).1 hi)
  refine ⟨A0, A, A', e0, e1, e2, ?_⟩
  intro r c h
  rw [inPattern_iff] at h
  rw [i2.get_mem hP (row_lt_of_mem h) h, i1.get_mem hP (row_lt_of_mem h) h]
  simp only [specStep]
  split <;> rfl

example : InPattern [[0, 2], [2, 1]] 1 1 ∧ (∀ row ∈ [[0, 2], [2, 1]], ∀ c ∈ row, c < 3) := by
  refine ⟨⟨_, rfl, by decide⟩, by decide⟩

/-- **C52 is false of the code.** Assigning a 1x2 dense matrix to a 2x1 dense matrix leaves the shape
of the target, so the entry (0,1) of the source reappears as entry (1,0). -/
theorem C52_dense_assignment_false :
    ∃ A B : Dense Int, (A.assign B).rows ≠ B.rows ∧ (A.assign B).cols ≠ B.cols ∧
      B.get 0 1 = some 7 ∧ (A.assign B).get 1 0 = some 7 :=
  ⟨Dense.new 2 1 0, ⟨1, 2, [5, 7]⟩, by decide, by decide, by decide, by decide⟩

/-- **C52, guarded version.** Assignment to an empty matrix or to one of the same shape makes the
target equal to the source. -/
theorem C52_dense_assignment_partial {α : Type} (A B : Dense α)
    (h : (A.rows = 0 ∧ A.cols = 0) ∨ (A.rows = B.rows ∧ A.cols = B.cols)) : A.assign B = B := by
  unfold Dense.assign
  split
  · rfl
  · rcases h with h | h
    · contradiction
    · cases A; cases B; simp_all

example : (Dense.new 2 3 (0 : Int)).rows = (Dense.mk 2 3 [1, 2, 3, 4, 5, 6]).rows := rfl

end Verif
