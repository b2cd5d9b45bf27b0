/-
The result buffer of a search and the search loop.
-/
import Verif.Spec.Search
import Verif.Lemmas.Decode
import Verif.Lemmas.Encode
import Verif.Lemmas.Errors

namespace Btrd
open Spec

/-! ### the buffer -/

theorem leNat_bufRead (buf : Mem) : ∀ n off, leNat (bufRead buf off n) = leAt buf off n := by
  intro n
  induction n with
  | zero => intro off; rfl
  | succ n ih =>
    intro off
    have : bufRead buf off (n + 1) = buf off :: bufRead buf (off + 1) n := by
      simp only [bufRead, List.range_succ_eq_map, List.map_cons, List.map_map, Nat.add_zero]
      congr 1
      apply List.map_congr_left
      intro j _
      simp only [Function.comp, Nat.succ_eq_add_one]
      congr 1
      omega
    rw [this, leNat, leAt, ih]

theorem bufRead_eq {buf : Mem} {off : Nat} {payload : Bytes}
    (h : ∀ j < payload.length, payload[j]? = some (buf (off + j))) : bufRead buf off payload.length = payload := by
  apply List.ext_getElem?
  intro j
  by_cases hj : j < payload.length
  · rw [h j hj]
    simp [bufRead, hj]
  · simp only [bufRead]
    rw [List.getElem?_eq_none (by simp; omega), List.getElem?_eq_none (by omega)]

/-- what is kept of the reported items `q`: those whose header is new; the others are counted -/
def merge (ret : List Item) (c : Nat) : List Item → List Item × Nat
  | [] => (ret, c)
  | it :: q => if ret.any (fun x => x.1 == it.1) then merge ret (c + 1) q else merge (ret ++ [it]) c q

theorem extractItems_holds (buf : Mem) : ∀ (q : List Item) (off : Nat) (ret : List Item) (c : Nat),
    Holds buf off q → extractItems buf q.length off ret c = .ok (merge ret c q) := by
  intro q
  induction q with
  | nil => intro off ret c _; rfl
  | cons it q ih =>
    intro off ret c h
    obtain ⟨hd, payload⟩ := it
    simp only [Holds] at h
    obtain ⟨h1, h2, h3, h4, h5, h6, h7, h8, h9⟩ := h
    have hh : readHeader buf off = hd := by
      simp only [readHeader, leNat_bufRead, h2, h3, h4, h5, h6]
    have hb : bufRead buf (off + headerSize) hd.len = payload := by
      rw [h7]; exact bufRead_eq h8
    have e1 : headerSize + off ≤ maxBufSize := by simp only [headerSize, maxBufSize, bufSize] at *; omega
    have e2 : hd.len + (off + headerSize) ≤ maxBufSize := by simp only [headerSize, maxBufSize, bufSize] at *; omega
    rw [List.length_cons, extractItems, if_pos e1]
    simp only [hh, if_pos e2, hb, merge]
    rw [show off + headerSize + hd.len = off + 32 + payload.length by simp only [headerSize]; omega]
    split
    · exact ih _ _ _ h9
    · exact ih _ _ _ h9

theorem extractItems_inv (buf : Mem) : ∀ (n off : Nat) (ret : List Item) (c : Nat) (r : List Item × Nat),
    extractItems buf n off ret c = .ok r → ∃ q, q.length = n ∧ Holds buf off q ∧ r = merge ret c q := by
  intro n
  induction n with
  | zero =>
    intro off ret c r h
    simp only [extractItems, Except.ok.injEq] at h
    exact ⟨[], rfl, trivial, h.symm⟩
  | succ n ih =>
    intro off ret c r h
    rw [extractItems] at h
    by_cases e1 : headerSize + off ≤ maxBufSize
    · rw [if_pos e1] at h
      simp only at h
      by_cases e2 : (readHeader buf off).len + (off + headerSize) ≤ maxBufSize
      · rw [if_pos e2] at h
        have key : ∀ q, q.length = n → Holds buf (off + headerSize + (readHeader buf off).len) q →
            Holds buf off ((readHeader buf off, bufRead buf (off + headerSize) (readHeader buf off).len) :: q) := by
          intro q hq hh
          simp only [Holds, bufRead_length]
          refine ⟨?_, ?_, ?_, ?_, ?_, ?_, ?_, ?_, ?_⟩
          · simp only [headerSize, maxBufSize, bufSize] at *; omega
          · simp only [readHeader, leNat_bufRead]
          · simp only [readHeader, leNat_bufRead]
          · simp only [readHeader, leNat_bufRead]
          · simp only [readHeader, leNat_bufRead]
          · simp only [readHeader, leNat_bufRead]
          · trivial
          · intro j hj
            simp only [bufRead, List.getElem?_map, List.getElem?_range hj, Option.map_some, headerSize]
          · exact hh
        split at h
        · rename_i hany
          obtain ⟨q, h1, h2, h3⟩ := ih _ _ _ _ h
          exact ⟨_, by simp [h1], key q h1 h2, by simp only [merge, hany, if_true]; exact h3⟩
        · rename_i hany
          obtain ⟨q, h1, h2, h3⟩ := ih _ _ _ _ h
          exact ⟨_, by simp [h1], key q h1 h2, by
            simp only [merge]; rw [if_neg hany]; exact h3⟩
      · rw [if_neg e2] at h; simp at h
    · rw [if_neg e1] at h; simp at h

theorem extractItems_err (buf : Mem) : ∀ (n off : Nat) (ret : List Item) (c : Nat) (e : Fail),
    extractItems buf n off ret c = .error e → ∃ p, e = .err (.searchShort p) := by
  intro n
  induction n with
  | zero => intro off ret c e h; simp [extractItems] at h
  | succ n ih =>
    intro off ret c e h
    rw [extractItems] at h
    by_cases e1 : headerSize + off ≤ maxBufSize
    · rw [if_pos e1] at h
      simp only at h
      by_cases e2 : (readHeader buf off).len + (off + headerSize) ≤ maxBufSize
      · rw [if_pos e2] at h
        split at h
        · exact ih _ _ _ _ h
        · exact ih _ _ _ _ h
      · rw [if_neg e2] at h
        simp only [R.err, Except.error.injEq] at h
        exact ⟨_, h.symm⟩
    · rw [if_neg e1] at h
      simp only [R.err, Except.error.injEq] at h
      exact ⟨_, h.symm⟩

/-- the items in a buffer are determined by their number -/
theorem Spec.Holds.unique {buf : Mem} : ∀ {q q' : List Item} {off : Nat}, Holds buf off q → Holds buf off q' →
    q.length = q'.length → q = q' := by
  intro q
  induction q with
  | nil => intro q' off _ _ h; exact (List.eq_nil_of_length_eq_zero h.symm).symm
  | cons it q ih =>
    intro q' off h h' hl
    obtain ⟨hd, payload⟩ := it
    match q', hl with
    | (hd', payload') :: q', hl =>
      simp only [Holds] at h h'
      obtain ⟨h1, h2, h3, h4, h5, h6, h7, h8, h9⟩ := h
      obtain ⟨g1, g2, g3, g4, g5, g6, g7, g8, g9⟩ := h'
      have ehd : hd = hd' := by
        cases hd; cases hd'
        simp only at *
        subst h2 h3 h4 h5 h6
        subst g2 g3 g4 g5 g6
        rfl
      have ep : payload = payload' := by
        have hlen : payload.length = payload'.length := by rw [← h7, ← g7, ehd]
        apply List.ext_getElem?
        intro j
        by_cases hj : j < payload.length
        · rw [h8 j hj, g8 j (by omega)]
        · rw [List.getElem?_eq_none (by omega), List.getElem?_eq_none (by omega)]
      subst ehd ep
      rw [ih h9 g9 (by simpa using hl)]

/-! ### duplicates -/

theorem merge_nodup : ∀ (q ret : List Item) (c : Nat), (ret.map (·.1)).Nodup →
    ((merge ret c q).1.map (·.1)).Nodup := by
  intro q
  induction q with
  | nil => intro ret c h; exact h
  | cons it q ih =>
    intro ret c h
    simp only [merge]
    split
    · exact ih _ _ h
    · rename_i hany
      apply ih
      rw [List.map_append, List.nodup_append]
      refine ⟨h, by simp, ?_⟩
      simp only [List.map_cons, List.map_nil, List.mem_singleton, List.mem_map]
      rintro _ ⟨x, hx, rfl⟩ _ rfl e
      apply hany
      rw [List.any_eq_true]
      exact ⟨x, hx, by simp [e]⟩

theorem merge_count : ∀ (q ret : List Item) (c : Nat), c ≤ (merge ret c q).2 := by
  intro q
  induction q with
  | nil => intro ret c; exact Nat.le_refl _
  | cons it q ih =>
    intro ret c
    simp only [merge]
    split
    · have := ih ret (c + 1); omega
    · exact ih _ c

/-- if nothing was counted, everything was kept -/
theorem merge_all : ∀ (q ret : List Item) (c : Nat), (merge ret c q).2 = c → (merge ret c q).1 = ret ++ q := by
  intro q
  induction q with
  | nil => intro ret c _; simp [merge]
  | cons it q ih =>
    intro ret c h
    simp only [merge] at h ⊢
    split
    · rename_i hany
      rw [if_pos hany] at h
      have := merge_count q ret (c + 1)
      omega
    · rename_i hany
      rw [if_neg hany] at h
      rw [ih _ _ h]
      simp

/-- different headers: everything is kept -/
theorem merge_distinct : ∀ (q ret : List Item) (c : Nat), ((ret ++ q).map (·.1)).Nodup → merge ret c q = (ret ++ q, c) := by
  intro q
  induction q with
  | nil => intro ret c _; simp [merge]
  | cons it q ih =>
    intro ret c h
    simp only [merge]
    have hany : ¬ (ret.any (fun x => x.1 == it.1)) = true := by
      rw [List.any_eq_true]
      rintro ⟨x, hx, e⟩
      rw [List.map_append, List.nodup_append] at h
      exact h.2.2 x.1 (List.mem_map_of_mem hx) it.1 (by simp) (by simpa using e)
    rw [if_neg hany, ih (ret ++ [it]) c (by simpa using h)]
    simp

/-! ### the loop -/

/-- the replies to calls `i`, `i+1`, ... hold these batches of items -/
def Batches (k : Kernel) : Nat → List (List Item) → Prop
  | _, [] => True
  | i, q :: qs => (∃ a buf, k i a = .data q.length buf ∧ Holds buf 0 q) ∧ Batches k (i + 1) qs

theorem searchLoop_inv (k : Kernel) (retry : Bool) : ∀ (fuel i : Nat) (args : SearchArgs) (ret : List Item) (c : Nat)
    (r : List Item × Nat), searchLoop k retry fuel i args ret c = .ok r →
    ∃ qs, Batches k i qs ∧ r = merge ret c qs.flatten := by
  have merge_append : ∀ (q q' ret : List Item) (c : Nat),
      merge ret c (q ++ q') = merge (merge ret c q).1 (merge ret c q).2 q' := by
    intro q q'
    induction q with
    | nil => intros; rfl
    | cons it q ih =>
      intro ret c
      simp only [List.cons_append, merge]
      split
      · exact ih _ _
      · exact ih _ _
  intro fuel
  induction fuel with
  | zero => intro i args ret c r h; simp [searchLoop] at h
  | succ fuel ih =>
    intro i args ret c r h
    rw [searchLoop] at h
    cases hk : k i args with
    | errno => rw [hk] at h; simp at h
    | data nr buf =>
      rw [hk] at h
      simp only at h
      cases hx : extractItems buf nr 0 ret c with
      | error e => rw [hx] at h; simp at h
      | ok r' =>
        rw [hx] at h
        obtain ⟨q, hq, hh, hr'⟩ := extractItems_inv buf nr 0 ret c r' hx
        have hb : ∃ a buf, k i a = .data q.length buf ∧ Holds buf 0 q := ⟨args, buf, by rw [hk, hq], hh⟩
        obtain ⟨ret', c'⟩ := r'
        simp only at h
        split at h
        · simp only [Except.ok.injEq] at h
          exact ⟨[q], ⟨hb, trivial⟩, by simp [← h, hr']⟩
        · cases hl : largestKey ret' with
          | error e => rw [hl] at h; simp at h
          | ok hd =>
            rw [hl] at h
            simp only at h
            split at h
            · split at h
              · obtain ⟨qs, h1, h2⟩ := ih _ _ _ _ _ h
                refine ⟨q :: qs, ⟨hb, h1⟩, ?_⟩
                rw [List.flatten_cons, merge_append, ← hr', h2]
              · simp at h
            · simp at h

/-! ### key order -/

theorem Spec.KeyLt.trans {a b c : Key} (h : KeyLt a b) (g : KeyLt b c) : KeyLt a c := by
  simp only [KeyLt] at *; omega

theorem Spec.KeyLt.asymm {a b : Key} (h : KeyLt a b) : ¬ KeyLt b a := by
  simp only [KeyLt] at *; omega

theorem Spec.KeyLt.irrefl (a : Key) : ¬ KeyLt a a := by simp only [KeyLt]; omega

theorem keyLt_iff (a b : Item) : Header.keyLt a.1 b.1 = true ↔ KeyLt (keyOf a) (keyOf b) := by
  simp only [Header.keyLt, KeyLt, keyOf]
  split
  · simp; omega
  · split
    · simp; omega
    · split
      · simp; omega
      · split
        · simp; omega
        · simp; omega

theorem largestKey_sorted : ∀ (p : List Item) (x : Item),
    (p ++ [x]).Pairwise (fun a b => KeyLt (keyOf a) (keyOf b)) → largestKey (p ++ [x]) = .ok x.1 := by
  have step : ∀ (p : List Item) (m x : Item), (m :: p ++ [x]).Pairwise (fun a b => KeyLt (keyOf a) (keyOf b)) →
      (p ++ [x]).foldl (fun m x => if Header.keyLt x.1 m then m else x.1) m.1 = x.1 := by
    intro p
    induction p with
    | nil =>
      intro m x h
      simp only [List.nil_append, List.foldl_cons, List.foldl_nil]
      have : ¬ Header.keyLt x.1 m.1 = true := by
        rw [keyLt_iff]
        simp only [List.cons_append, List.nil_append, List.pairwise_cons] at h
        exact (h.1 x (by simp)).asymm
      rw [if_neg this]
    | cons y p ih =>
      intro m x h
      simp only [List.cons_append, List.foldl_cons]
      rw [List.cons_append, List.pairwise_cons] at h
      have : ¬ Header.keyLt y.1 m.1 = true := by
        rw [keyLt_iff]
        exact (h.1 y (by simp)).asymm
      rw [if_neg this]
      exact ih y x (by simpa using h.2)
  intro p x h
  cases p with
  | nil => rfl
  | cons m p => simp only [List.cons_append, largestKey]; rw [step p m x h]

/-- continuing after the last item of a batch asks for exactly the rest -/
theorem matching_next {trees : Trees} (hw : WellOrdered trees) (a : SearchArgs) (q rest : List Item) (x : Item)
    (hm : matching trees a = q ++ [x] ++ rest) :
    matching trees { a with minObjectid := x.1.objectid, minType := x.1.ty, minOffset := x.1.offset + 1 } = rest := by
  have hx : Asked a x := by
    have : x ∈ matching trees a := by rw [hm]; simp
    simpa [matching] using (List.mem_filter.1 this).2
  have hs : (matching trees a).Pairwise (fun a b => KeyLt (keyOf a) (keyOf b)) :=
    (hw a.treeId).1.filter _
  have hf : matching trees { a with minObjectid := x.1.objectid, minType := x.1.ty, minOffset := x.1.offset + 1 } =
      (matching trees a).filter (fun it => decide (KeyLt (keyOf x) (keyOf it))) := by
    simp only [matching, List.filter_filter]
    apply List.filter_congr
    intro it _
    rw [← Bool.decide_and, decide_eq_decide]
    simp only [Asked, keyOf, KeyLt] at hx ⊢
    omega
  rw [hf]
  rw [hm] at hs ⊢
  rw [List.pairwise_append, List.pairwise_append] at hs
  obtain ⟨⟨-, -, h1⟩, -, h2⟩ := hs
  rw [List.filter_append, List.filter_append]
  have e1 : q.filter (fun it => decide (KeyLt (keyOf x) (keyOf it))) = [] := by
    rw [List.filter_eq_nil_iff]
    intro it hit
    simp only [decide_eq_true_eq]
    exact (h1 it hit x (by simp)).asymm
  have e2 : [x].filter (fun it => decide (KeyLt (keyOf x) (keyOf it))) = [] := by
    rw [List.filter_eq_nil_iff]
    intro it hit
    simp only [List.mem_singleton] at hit
    subst hit
    simp only [decide_eq_true_eq]
    exact Spec.KeyLt.irrefl _
  have e3 : rest.filter (fun it => decide (KeyLt (keyOf x) (keyOf it))) = rest := by
    rw [List.filter_eq_self]
    intro it hit
    simp only [decide_eq_true_eq]
    exact h2 x (by simp) it hit
  rw [e1, e2, e3]
  rfl

theorem sorted_headers_nodup {l : List Item} (h : l.Pairwise (fun a b => KeyLt (keyOf a) (keyOf b))) :
    (l.map (·.1)).Nodup := by
  rw [List.Nodup, List.pairwise_map]
  refine h.imp ?_
  intro a b hab e
  simp only [keyOf, KeyLt, e] at hab
  omega

theorem matching_ty {trees : Trees} (hw : WellOrdered trees) (a : SearchArgs) :
    ∀ it ∈ matching trees a, it.1.ty < 256 := by
  intro it h
  exact (hw a.treeId).2 it (List.mem_filter.1 h).1

/-- one more call of a search that is continued: either the end, or the next batch and its last item -/
theorem searchLoop_answered {k : Kernel} {trees : Trees} (hk : Honours k trees) (hw : WellOrdered trees)
    (fuel i : Nat) (args : SearchArgs) (p rest : List Item) (c : Nat)
    (hm : matching trees args = rest)
    (hs : (p ++ rest).Pairwise (fun a b => KeyLt (keyOf a) (keyOf b))) :
    (rest = [] ∧ searchLoop k true (fuel + 1) i args p c = .ok (p, c)) ∨
    ∃ q x rest', rest = q ++ [x] ++ rest' ∧ (∃ buf, k i args = .data (q.length + 1) buf) ∧
      ((x.1.offset + 1 < 2 ^ 64 ∧ ∃ args', matching trees args' = rest' ∧
        searchLoop k true (fuel + 1) i args p c = searchLoop k true fuel (i + 1) args' (p ++ (q ++ [x])) c) ∨
       (¬ x.1.offset + 1 < 2 ^ 64 ∧ searchLoop k true (fuel + 1) i args p c = .error (.err .bumpOffset))) := by
  obtain ⟨buf, q, rest', hr, hh, hq, he⟩ := hk i args
  rw [hm] at hq
  have hd : ((p ++ q).map (·.1)).Nodup := by
    apply sorted_headers_nodup
    rw [hq, ← List.append_assoc] at hs
    exact (List.pairwise_append.1 hs).1
  have hx := extractItems_holds buf q 0 p c hh
  rw [merge_distinct q p c hd] at hx
  rcases List.eq_nil_or_concat q with rfl | ⟨q', x, rfl⟩
  · left
    have := he rfl
    subst this
    refine ⟨by simpa using hq, ?_⟩
    rw [searchLoop, hr]
    simp only [hx]
    simp
  · right
    rw [List.concat_eq_append] at *
    refine ⟨q', x, rest', hq, ⟨buf, by rw [hr]; simp⟩, ?_⟩
    have hnx := matching_next hw args q' rest' x (by rw [hm, hq])
    have hty : x.1.ty < 256 := matching_ty hw args x (by rw [hm, hq]; simp)
    have hlk : largestKey (p ++ (q' ++ [x])) = .ok x.1 := by
      rw [← List.append_assoc]
      apply largestKey_sorted
      rw [hq, ← List.append_assoc, ← List.append_assoc] at hs
      exact (List.pairwise_append.1 hs).1
    have hn : ((q' ++ [x]).length == 0) = false := by simp
    by_cases ho : x.1.offset + 1 < 2 ^ 64
    · left
      refine ⟨ho, _, hnx, ?_⟩
      rw [searchLoop, hr]
      simp only [hx, hn, Bool.not_true, Bool.or_self, Bool.false_eq_true, if_false, hlk, if_pos hty, if_pos ho]
    · right
      refine ⟨ho, ?_⟩
      rw [searchLoop, hr]
      simp only [hx, hn, Bool.not_true, Bool.or_self, Bool.false_eq_true, if_false, hlk, if_pos hty, if_neg ho]

theorem searchLoop_honoured {k : Kernel} {trees : Trees} (hk : Honours k trees) (hw : WellOrdered trees)
    (fuel i : Nat) (args : SearchArgs) (p rest : List Item) (c : Nat)
    (hm : matching trees args = rest)
    (hs : (p ++ rest).Pairwise (fun a b => KeyLt (keyOf a) (keyOf b))) :
    (rest = [] ∧ searchLoop k true (fuel + 1) i args p c = .ok (p, c)) ∨
    ∃ q x rest', rest = q ++ [x] ++ rest' ∧
      ((x.1.offset + 1 < 2 ^ 64 ∧ ∃ args', matching trees args' = rest' ∧
        searchLoop k true (fuel + 1) i args p c = searchLoop k true fuel (i + 1) args' (p ++ (q ++ [x])) c) ∨
       (¬ x.1.offset + 1 < 2 ^ 64 ∧ searchLoop k true (fuel + 1) i args p c = .error (.err .bumpOffset))) := by
  rcases searchLoop_answered hk hw fuel i args p rest c hm hs with h | ⟨q, x, rest', h1, -, h2⟩
  · exact .inl h
  · exact .inr ⟨q, x, rest', h1, h2⟩

theorem searchLoop_complete {k : Kernel} {trees : Trees} (hk : Honours k trees) (hw : WellOrdered trees) :
    ∀ (fuel i : Nat) (args : SearchArgs) (p rest : List Item) (c : Nat), matching trees args = rest →
    (p ++ rest).Pairwise (fun a b => KeyLt (keyOf a) (keyOf b)) →
    (∀ it ∈ rest, it.1.offset + 1 < 2 ^ 64) → rest.length < fuel →
    searchLoop k true fuel i args p c = .ok (p ++ rest, c) := by
  intro fuel
  induction fuel with
  | zero => intro i args p rest c _ _ _ h; omega
  | succ fuel ih =>
    intro i args p rest c hm hs ho hl
    rcases searchLoop_honoured hk hw fuel i args p rest c hm hs with ⟨rfl, h⟩ | ⟨q, x, rest', rfl, h⟩
    · rw [h]; simp
    · rcases h with ⟨-, args', h1, h2⟩ | ⟨h1, -⟩
      · rw [h2, ih (i + 1) args' (p ++ (q ++ [x])) rest' c h1 (by simpa using hs) (fun it hit => ho it (by simp [hit]))
          (by simp at hl; omega)]
        simp
      · exact absurd (ho x (by simp)) h1

theorem searchLoop_last_offset {k : Kernel} {trees : Trees} (hk : Honours k trees) (hw : WellOrdered trees) :
    ∀ (fuel i : Nat) (args : SearchArgs) (p rest : List Item) (y : Item) (c : Nat), matching trees args = rest ++ [y] →
    (p ++ (rest ++ [y])).Pairwise (fun a b => KeyLt (keyOf a) (keyOf b)) →
    ¬ y.1.offset + 1 < 2 ^ 64 →
    searchLoop k true fuel i args p c = R.diverge ∨ searchLoop k true fuel i args p c = .error (.err .bumpOffset) := by
  intro fuel
  induction fuel with
  | zero => intro i args p rest y c _ _ _; left; rfl
  | succ fuel ih =>
    intro i args p rest y c hm hs ho
    rcases searchLoop_honoured hk hw fuel i args p (rest ++ [y]) c hm hs with ⟨h, -⟩ | ⟨q, x, rest', he, h⟩
    · simp at h
    · rcases h with ⟨ho', args', h1, h2⟩ | ⟨h1, h2⟩
      · rw [h2]
        rcases List.eq_nil_or_concat rest' with rfl | ⟨rest'', z, rfl⟩
        · rw [List.append_nil] at he
          have := (List.append_inj' he (by simp)).2
          simp only [List.cons.injEq, and_true] at this
          rw [this] at ho
          exact absurd ho' ho
        · rw [List.concat_eq_append] at *
          have hz : rest ++ [y] = (q ++ [x] ++ rest'') ++ [z] := by rw [he]; simp
          have := (List.append_inj' hz (by simp)).2
          simp only [List.cons.injEq, and_true] at this
          subst this
          exact ih (i + 1) args' (p ++ (q ++ [x])) rest'' y c h1 (by rw [he] at hs; simpa using hs) ho
      · right; exact h2

end Btrd
