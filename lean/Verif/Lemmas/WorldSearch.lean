/-
`search()` against the rules of `Spec/World`: the request, the conversation with the kernel, the contents of the items.
-/
import Batteries.Data.List.Perm
import Verif.Lemmas.WorldFs
import Verif.Props.Dispatch
import Verif.Lemmas.Complaints

namespace Btrd
open Spec

/-! ### the request -/

theorem keyArg_iff (k : StructVal) (name : Str) (bits n : Nat) :
    keyArg k name bits = .ok n ↔ Num k.fields name bits n := by
  constructor
  · intro h
    obtain ⟨v, h1, h2⟩ := bind_ok h
    obtain ⟨i, h3, h4⟩ := bind_ok h2
    have := asInteger_inv h3
    subst this
    obtain ⟨h5, h6⟩ := tryUnsigned_inv h4
    subst h5
    exact ⟨firstField_iff.1 (orErr_ok h1), h6⟩
  · rintro ⟨h1, h2⟩
    rw [keyArg, StructVal.field, firstField_iff.2 h1]
    exact tryUnsigned_nat h2

theorem two_pow_cast (bits : Nat) : ((2 ^ bits : Nat) : Int) = 2 ^ bits := by simp

theorem keyArg_fails_iff (k : StructVal) (name : Str) (bits : Nat) (m : Option Str) :
    (∃ e, keyArg k name bits = R.err e ∧ e.text = m) ↔ NumFails k.name k.fields name bits m := by
  constructor
  · rintro ⟨e, h, rfl⟩
    rcases bind_err h with h | ⟨v, h1, h2⟩
    · obtain ⟨h0, rfl⟩ := orErr_err h
      refine .none ?_
      intro v hv
      rw [firstField_iff.2 hv] at h0
      cases h0
    · have hv := firstField_iff.1 (orErr_ok h1)
      rcases bind_err h2 with h2 | ⟨i, h3, h4⟩
      · obtain ⟨h2, h3⟩ := asInteger_err h2
        rw [h3]
        exact .kind hv h2
      · have := asInteger_inv h3
        subst this
        obtain ⟨h5, rfl⟩ := tryUnsigned_fails h4
        rw [two_pow_cast] at h5
        exact .range hv h5
  · intro h
    cases h with
    | none h =>
      refine ⟨.noField name k.name, ?_, rfl⟩
      rw [keyArg, StructVal.field]
      cases hf : fieldLookup k.fields name with
      | none => rfl
      | some v => exact absurd (firstField_iff.1 hf) (h v)
    | @kind v h1 h2 =>
      rw [keyArg, StructVal.field, firstField_iff.2 h1]
      refine ⟨.typeMismatch s!' "integer" v.shortDisplay, ?_, text_mismatch _ _⟩
      cases v <;> first | rfl | exact absurd rfl (h2 _)
    | range h1 h2 =>
      rw [keyArg, StructVal.field, firstField_iff.2 h1]
      refine ⟨.conversion, tryUnsigned_err ?_, rfl⟩
      omega

/-- the fields of the key, one after the other -/
def keyArgs (k : StructVal) : List (Str × Nat) → R (List Nat)
  | [] => .ok []
  | p :: ps => do
    let n ← keyArg k p.1 p.2
    let ns ← keyArgs k ps
    .ok (n :: ns)

/-- the request, from the numbers of the fields -/
def toArgs (tree : Nat) : List Nat → SearchArgs
  | [a, b, c, d, e, f, g, h] => ⟨tree, a, b, c, d, e, f, g, h⟩
  | _ => ⟨0, 0, 0, 0, 0, 0, 0, 0, 0⟩

theorem searchArgs_eq (tree : Int) (k : StructVal) : searchArgs tree k = (do
    let t ← tryUnsigned 64 tree
    let ns ← keyArgs k keyBits
    .ok (toArgs t ns)) := by
  rw [searchArgs]
  cases tryUnsigned 64 tree with
  | error e => rfl
  | ok t =>
    simp only [bind, Except.bind, keyBits, keyArgs]
    cases keyArg k s!' "min_objectid" 64 with
    | error e => rfl
    | ok a =>
    cases keyArg k s!' "max_objectid" 64 with
    | error e => rfl
    | ok b =>
    cases keyArg k s!' "min_type" 8 with
    | error e => rfl
    | ok c =>
    cases keyArg k s!' "max_type" 8 with
    | error e => rfl
    | ok d =>
    cases keyArg k s!' "min_offset" 64 with
    | error e => rfl
    | ok e =>
    cases keyArg k s!' "max_offset" 64 with
    | error e => rfl
    | ok f =>
    cases keyArg k s!' "min_transid" 64 with
    | error e => rfl
    | ok g =>
    cases keyArg k s!' "max_transid" 64 with
    | error e => rfl
    | ok h => rfl

theorem keyArgs_iff (k : StructVal) : ∀ (ps : List (Str × Nat)) (ns : List Nat),
    keyArgs k ps = .ok ns ↔ List.Forall₂ (fun p n => Num k.fields p.1 p.2 n) ps ns := by
  intro ps
  induction ps with
  | nil =>
    intro ns
    constructor
    · intro h; cases h; exact .nil
    · intro h; cases h; rfl
  | cons p ps ih =>
    intro ns
    constructor
    · intro h
      obtain ⟨n, h1, h2⟩ := bind_ok h
      obtain ⟨ns', h3, h4⟩ := bind_ok h2
      cases h4
      exact .cons ((keyArg_iff ..).1 h1) ((ih _).1 h3)
    · intro h
      cases h with
      | cons h1 h2 =>
        rw [keyArgs, (keyArg_iff ..).2 h1, (ih _).2 h2]
        rfl

theorem keyArgs_fails_iff (k : StructVal) (m : Option Str) : ∀ (ps : List (Str × Nat)),
    (∃ e, keyArgs k ps = R.err e ∧ e.text = m) ↔
      ∃ before name bits after, ps = before ++ (name, bits) :: after ∧
        (∀ p ∈ before, ∃ n, Num k.fields p.1 p.2 n) ∧ NumFails k.name k.fields name bits m := by
  intro ps
  induction ps with
  | nil =>
    constructor
    · rintro ⟨e, h, -⟩; cases h
    · rintro ⟨b, n, c, d, h, -⟩; simp at h
  | cons p ps ih =>
    constructor
    · rintro ⟨e, h, he⟩
      rcases bind_err h with h | ⟨n, h1, h2⟩
      · exact ⟨[], p.1, p.2, ps, rfl, by simp, (keyArg_fails_iff ..).1 ⟨e, h, he⟩⟩
      · rcases bind_err h2 with h2 | ⟨ns, h3, h4⟩
        · obtain ⟨b, n', c, d, rfl, h5, h6⟩ := ih.1 ⟨e, h2, he⟩
          refine ⟨p :: b, n', c, d, rfl, ?_, h6⟩
          intro q hq
          rcases List.mem_cons.1 hq with rfl | hq
          · exact ⟨n, (keyArg_iff ..).1 h1⟩
          · exact h5 q hq
        · cases h4
    · rintro ⟨b, name, bits, d, h, h5, h6⟩
      cases b with
      | nil =>
        simp only [List.nil_append, List.cons.injEq] at h
        obtain ⟨rfl, rfl⟩ := h
        obtain ⟨e, h1, h2⟩ := (keyArg_fails_iff ..).2 h6
        refine ⟨e, ?_, h2⟩
        rw [keyArgs, h1]
        rfl
      | cons q b =>
        simp only [List.cons_append, List.cons.injEq] at h
        obtain ⟨rfl, rfl⟩ := h
        obtain ⟨n, hn⟩ := h5 p (by simp)
        obtain ⟨e, h1, h2⟩ := ih.2 ⟨b, name, bits, d, rfl, fun q hq => h5 q (by simp [hq]), h6⟩
        refine ⟨e, ?_, h2⟩
        rw [keyArgs, (keyArg_iff ..).2 hn, h1]
        rfl

theorem request_iff (tree : Int) (k : StructVal) (a : SearchArgs) :
    searchArgs tree k = .ok a ↔ Requests tree k.fields a := by
  rw [searchArgs_eq]
  constructor
  · intro h
    obtain ⟨t, h1, h2⟩ := bind_ok h
    obtain ⟨ns, h3, h4⟩ := bind_ok h2
    obtain ⟨rfl, h5⟩ := tryUnsigned_inv h1
    replace h3 := (keyArgs_iff ..).1 h3
    simp only [keyBits] at h3
    cases h3 with | cons a1 h3 =>
    cases h3 with | cons a2 h3 =>
    cases h3 with | cons a3 h3 =>
    cases h3 with | cons a4 h3 =>
    cases h3 with | cons a5 h3 =>
    cases h3 with | cons a6 h3 =>
    cases h3 with | cons a7 h3 =>
    cases h3 with | cons a8 h3 =>
    cases h3
    cases h4
    exact ⟨⟨rfl, h5⟩, a1, a2, a3, a4, a5, a6, a7, a8⟩
  · intro h
    obtain ⟨⟨rfl, h5⟩, a1, a2, a3, a4, a5, a6, a7, a8⟩ := h
    rw [tryUnsigned_nat h5]
    have := (keyArgs_iff k keyBits _).2 (.cons a1 (.cons a2 (.cons a3 (.cons a4 (.cons a5 (.cons a6 (.cons a7 (.cons a8 .nil))))))))
    simp only [bind, Except.bind]
    rw [this]
    rfl

theorem request_fails_iff (tree : Int) (k : StructVal) (m : Option Str) :
    (∃ e, searchArgs tree k = R.err e ∧ e.text = m) ↔ RequestFails k.name tree k.fields m := by
  rw [searchArgs_eq]
  constructor
  · rintro ⟨e, h, he⟩
    rcases bind_err h with h | ⟨t, h1, h2⟩
    · obtain ⟨h0, rfl⟩ := tryUnsigned_fails h
      subst he
      exact .tree (by simpa using h0)
    · rcases bind_err h2 with h2 | ⟨ns, h3, h4⟩
      · obtain ⟨rfl, h5⟩ := tryUnsigned_inv h1
        obtain ⟨b, name, bits, d, h6, h7, h8⟩ := (keyArgs_fails_iff ..).1 ⟨e, h2, he⟩
        exact .field (by omega) (by exact_mod_cast h5) h6 h7 h8
      · cases h4
  · intro h
    cases h with
    | tree h =>
      refine ⟨.conversion, ?_, rfl⟩
      rw [tryUnsigned_err (by omega)]
      rfl
    | field h0 h1 h2 h3 h4 =>
      rw [tryUnsigned_ok h0 h1]
      obtain ⟨e, h5, h6⟩ := (keyArgs_fails_iff ..).2 ⟨_, _, _, _, h2, h3, h4⟩
      refine ⟨e, ?_, h6⟩
      simp only [bind, Except.bind]
      rw [h5]

/-! ### the conversation -/

theorem merge_append (q q' : List Item) : ∀ (ret : List Item) (c : Nat),
    merge ret c (q ++ q') = merge (merge ret c q).1 (merge ret c q).2 q' := by
  induction q with
  | nil => intros; rfl
  | cons it q ih =>
    intro ret c
    simp only [List.cons_append, merge]
    split
    · exact ih _ _
    · exact ih _ _

/-- the items kept have the headers of all items -/
theorem merge_headers : ∀ (q ret : List Item) (c : Nat) (h : Header),
    h ∈ (merge ret c q).1.map (·.1) ↔ h ∈ ret.map (·.1) ∨ h ∈ q.map (·.1) := by
  intro q
  induction q with
  | nil => intro ret c h; simp [merge]
  | cons it q ih =>
    intro ret c h
    simp only [merge]
    split
    · rename_i hany
      rw [ih, List.map_cons, List.mem_cons]
      rw [List.any_eq_true] at hany
      obtain ⟨x, hx, e⟩ := hany
      have e : x.1 = it.1 := by simpa using e
      constructor
      · rintro (h1 | h1)
        · exact .inl h1
        · exact .inr (.inr h1)
      · rintro (h1 | h1 | h1)
        · exact .inl h1
        · rw [h1, ← e]; exact .inl (List.mem_map_of_mem hx)
        · exact .inr h1
    · rw [ih]
      simp only [List.map_append, List.mem_append, List.map_cons, List.map_nil, List.mem_cons, List.not_mem_nil, or_false,
        or_assoc]

theorem merge_total : ∀ (q ret : List Item) (c : Nat),
    (merge ret c q).1.length + (merge ret c q).2 = ret.length + c + q.length := by
  intro q
  induction q with
  | nil => intro ret c; simp [merge]
  | cons it q ih =>
    intro ret c
    simp only [merge]
    split
    · rw [ih]; simp; omega
    · rw [ih]; simp; omega

theorem largest_ok : ∀ {ret : List Item} {h : Header}, largestKey ret = .ok h →
    ∃ it ∈ ret, it.1 = h ∧ ∀ x ∈ ret, ¬ KeyLt (keyOf it) (keyOf x) := by
  have step : ∀ (p : List Item) (m : Item), ∃ it ∈ m :: p,
      p.foldl (fun m x => if Header.keyLt x.1 m then m else x.1) m.1 = it.1 ∧
        ∀ x ∈ m :: p, ¬ KeyLt (keyOf it) (keyOf x) := by
    intro p
    induction p with
    | nil =>
      intro m
      refine ⟨m, by simp, rfl, ?_⟩
      intro x hx
      simp only [List.mem_singleton] at hx
      subst hx
      exact KeyLt.irrefl _
    | cons y p ih =>
      intro m
      simp only [List.foldl_cons]
      by_cases hk : Header.keyLt y.1 m.1 = true
      · rw [if_pos hk]
        obtain ⟨it, h1, h2, h3⟩ := ih m
        refine ⟨it, ?_, h2, ?_⟩
        · rcases List.mem_cons.1 h1 with h1 | h1
          · simp [h1]
          · simp [h1]
        · intro x hx
          simp only [List.mem_cons] at hx
          rcases hx with rfl | rfl | hx
          · exact h3 _ (by simp)
          · intro hc
            exact h3 m (by simp) (hc.trans ((keyLt_iff _ _).1 hk))
          · exact h3 _ (by simp [hx])
      · rw [if_neg hk]
        obtain ⟨it, h1, h2, h3⟩ := ih y
        refine ⟨it, by simp only [List.mem_cons] at h1 ⊢; exact .inr h1, h2, ?_⟩
        intro x hx
        simp only [List.mem_cons] at hx
        rcases hx with rfl | rfl | hx
        · intro hc
          have := h3 y (by simp)
          rw [keyLt_iff] at hk
          simp only [KeyLt] at hc this hk
          omega
        · exact h3 _ (by simp)
        · exact h3 _ (by simp [hx])
  intro ret h hl
  cases ret with
  | nil => cases hl
  | cons m p =>
    simp only [largestKey, Except.ok.injEq] at hl
    obtain ⟨it, h1, h2, h3⟩ := step p m
    exact ⟨it, h1, by rw [← h2, hl], h3⟩

theorem after_eq (a : SearchArgs) (it it' : Item) (h : keyOf it = keyOf it') : after a it = after a it' := by
  simp only [keyOf, Prod.mk.injEq] at h
  simp only [after, h]

/-- the largest key of the items kept is the largest key of all items -/
theorem largest_merge {got : List Item} {h : Header} (hl : largestKey (merge [] 0 got).1 = .ok h) :
    ∃ it, Largest it got ∧ it.1 = h := by
  obtain ⟨it, h1, h2, h3⟩ := largest_ok hl
  have hm : it.1 ∈ got.map (·.1) := by
    have := (merge_headers got [] 0 it.1).1 (List.mem_map_of_mem h1)
    simpa using this
  obtain ⟨y, hy, e⟩ := List.mem_map.1 hm
  refine ⟨y, ⟨hy, ?_⟩, by rw [e, h2]⟩
  intro x hx hk
  have hx' : x.1 ∈ (merge [] 0 got).1.map (·.1) := (merge_headers got [] 0 x.1).2 (.inr (List.mem_map_of_mem hx))
  obtain ⟨z, hz, e'⟩ := List.mem_map.1 hx'
  apply h3 z hz
  simp only [keyOf] at hk ⊢
  rw [← e, e']
  exact hk

theorem largest_key {it it' : Item} {got : List Item} (h : Largest it got) (h' : Largest it' got) : keyOf it = keyOf it' := by
  have h1 := h.2 it' h'.1
  have h2 := h'.2 it h.1
  simp only [KeyLt] at h1 h2
  simp only [keyOf, Prod.mk.injEq] at *
  omega

theorem largest_exists {got : List Item} (h : got ≠ []) : ∃ h, largestKey (merge [] 0 got).1 = .ok h := by
  cases hm : (merge [] 0 got).1 with
  | cons x xs => exact ⟨_, rfl⟩
  | nil =>
    obtain ⟨y, ys, rfl⟩ := List.exists_cons_of_ne_nil h
    have := (merge_headers (y :: ys) [] 0 y.1).2 (.inr (by simp))
    rw [hm] at this
    simp at this

/-- where reading the buffer stops: no room for another header, or for its payload -/
theorem extractItems_stops (buf : Mem) : ∀ (n off : Nat) (ret : List Item) (c : Nat) (e : Err),
    extractItems buf n off ret c = R.err e → ∃ q, q.length < n ∧ Holds buf off q ∧
      (e = .searchShort false ∧ bufSize < off + filled q + 32 ∨
       e = .searchShort true ∧ off + filled q + 32 ≤ bufSize ∧
         bufSize < off + filled q + 32 + leAt buf (off + filled q + 28) 4) := by
  intro n
  induction n with
  | zero => intro off ret c e h; cases h
  | succ n ih =>
    intro off ret c e h
    rw [extractItems] at h
    by_cases e1 : headerSize + off ≤ maxBufSize
    · rw [if_pos e1] at h
      simp only at h
      by_cases e2 : (readHeader buf off).len + (off + headerSize) ≤ maxBufSize
      · rw [if_pos e2] at h
        have h' : ∃ ret c, extractItems buf n (off + headerSize + (readHeader buf off).len) ret c = R.err e := by
          split at h
          · exact ⟨_, _, h⟩
          · exact ⟨_, _, h⟩
        obtain ⟨ret', c', h'⟩ := h'
        obtain ⟨q, h1, h2, h3⟩ := ih _ _ _ _ h'
        refine ⟨(readHeader buf off, bufRead buf (off + headerSize) (readHeader buf off).len) :: q, by simp [h1], ?_, ?_⟩
        · simp only [Holds, bufRead_length]
          refine ⟨?_, ?_, ?_, ?_, ?_, ?_, trivial, ?_, h2⟩
          · simp only [headerSize, maxBufSize, bufSize] at *; omega
          · simp only [readHeader, leNat_bufRead]
          · simp only [readHeader, leNat_bufRead]
          · simp only [readHeader, leNat_bufRead]
          · simp only [readHeader, leNat_bufRead]
          · simp only [readHeader, leNat_bufRead]
          · intro j hj
            simp only [bufRead, List.getElem?_map, List.getElem?_range hj, Option.map_some, headerSize]
        · simp only [filled, bufRead_length]
          have eo : off + headerSize + (readHeader buf off).len + filled q =
              off + (32 + (readHeader buf off).len + filled q) := by simp only [headerSize]; omega
          rw [eo] at h3
          exact h3
      · rw [if_neg e2] at h
        cases h
        refine ⟨[], by simp, trivial, .inr ⟨rfl, ?_⟩⟩
        simp only [filled, Nat.add_zero]
        simp only [readHeader, leNat_bufRead, headerSize, maxBufSize, bufSize] at *
        omega
    · rw [if_neg e1] at h
      cases h
      refine ⟨[], by simp, trivial, .inl ⟨rfl, ?_⟩⟩
      simp only [filled, headerSize, maxBufSize, bufSize] at *
      omega

theorem stops_extractItems (buf : Mem) (p : Bool) : ∀ (q : List Item) (n off : Nat) (ret : List Item) (c : Nat),
    q.length < n → Holds buf off q →
      (p = false ∧ bufSize < off + filled q + 32 ∨
       p = true ∧ off + filled q + 32 ≤ bufSize ∧ bufSize < off + filled q + 32 + leAt buf (off + filled q + 28) 4) →
    extractItems buf n off ret c = R.err (.searchShort p) := by
  intro q
  induction q with
  | nil =>
    intro n off ret c hn _ hp
    obtain ⟨n, rfl⟩ : ∃ k, n = k + 1 := ⟨n - 1, by simp at hn; omega⟩
    rw [extractItems]
    simp only [filled, Nat.add_zero] at hp
    rcases hp with ⟨rfl, hp⟩ | ⟨rfl, hp, hp'⟩
    · rw [if_neg (by simp only [headerSize, maxBufSize, bufSize] at *; omega)]
    · rw [if_pos (by simp only [headerSize, maxBufSize, bufSize] at *; omega)]
      simp only
      rw [if_neg (by simp only [readHeader, leNat_bufRead, headerSize, maxBufSize, bufSize] at *; omega)]
  | cons it q ih =>
    intro n off ret c hn hh hp
    obtain ⟨n, rfl⟩ : ∃ k, n = k + 1 := ⟨n - 1, by simp at hn; omega⟩
    obtain ⟨hd, payload⟩ := it
    simp only [Holds] at hh
    obtain ⟨h1, h2, h3, h4, h5, h6, h7, h8, h9⟩ := hh
    have hh : readHeader buf off = hd := by
      simp only [readHeader, leNat_bufRead, h2, h3, h4, h5, h6]
    have e1 : headerSize + off ≤ maxBufSize := by simp only [headerSize, maxBufSize, bufSize] at *; omega
    have e2 : hd.len + (off + headerSize) ≤ maxBufSize := by simp only [headerSize, maxBufSize, bufSize] at *; omega
    rw [extractItems, if_pos e1]
    simp only [hh, if_pos e2]
    rw [show off + headerSize + hd.len = off + 32 + payload.length by simp only [headerSize]; omega]
    simp only [filled] at hp
    have eo : off + (32 + payload.length + filled q) = off + 32 + payload.length + filled q := by omega
    rw [eo] at hp
    simp only [List.length_cons] at hn
    split
    · exact ih _ _ _ _ (by omega) h9 hp
    · exact ih _ _ _ _ (by omega) h9 hp

theorem talk_of_loop (k : Kernel) (on : Prop) (retry : Bool) (hr : retry = true ↔ on) : ∀ (fuel i : Nat) (a : SearchArgs)
    (got : List Item) (r : List Item × Nat),
    searchLoop k retry fuel i a (merge [] 0 got).1 (merge [] 0 got).2 = .ok r →
    ∃ all, Talk k on i a got all ∧ r = merge [] 0 all := by
  intro fuel
  induction fuel with
  | zero => intro i a got r h; cases h
  | succ fuel ih =>
    intro i a got r h
    rw [searchLoop] at h
    cases hk : k i a with
    | errno => rw [hk] at h; cases h
    | data n buf =>
      rw [hk] at h
      simp only at h
      cases hx : extractItems buf n 0 (merge [] 0 got).1 (merge [] 0 got).2 with
      | error e => rw [hx] at h; cases h
      | ok r' =>
        rw [hx] at h
        obtain ⟨q, hq, hh, hr'⟩ := extractItems_inv buf n 0 _ _ r' hx
        rw [← merge_append] at hr'
        subst hq
        subst hr'
        simp only at h
        by_cases hc : (!retry || q.length == 0) = true
        · rw [if_pos hc] at h
          cases h
          refine ⟨_, .last hk hh ?_, rfl⟩
          simp only [Bool.or_eq_true, Bool.not_eq_true', beq_iff_eq, List.length_eq_zero_iff] at hc
          rw [← hr]
          simpa using hc
        · rw [if_neg hc] at h
          simp only [Bool.or_eq_true, Bool.not_eq_true', beq_iff_eq, List.length_eq_zero_iff, not_or] at hc
          have hon : on := hr.1 (by simpa using hc.1)
          cases hl : largestKey (merge [] 0 (got ++ q)).1 with
          | error e => rw [hl] at h; cases h
          | ok hd =>
            rw [hl] at h
            simp only at h
            obtain ⟨it, h1, rfl⟩ := largest_merge hl
            by_cases h2 : it.1.ty < 256
            · rw [if_pos h2] at h
              by_cases h3 : it.1.offset + 1 < 2 ^ 64
              · rw [if_pos h3] at h
                obtain ⟨all, h4, h5⟩ := ih _ _ (got ++ q) _ h
                exact ⟨all, .more hk hh hon hc.2 h1 h2 h3 h4, h5⟩
              · rw [if_neg h3] at h; cases h
            · rw [if_neg h2] at h; cases h

theorem loop_first (k : Kernel) (on : Prop) (retry : Bool) (hr : retry = true ↔ on) (fuel i : Nat) (a : SearchArgs)
    (got q : List Item) (buf : Mem) (hk : k i a = .data q.length buf) (hh : Holds buf 0 q) (hon : on) (hq : q ≠ [])
    (it : Item) (hl : Largest it (got ++ q)) :
    searchLoop k retry (fuel + 1) i a (merge [] 0 got).1 (merge [] 0 got).2 =
      if it.1.ty < 256 then
        if it.1.offset + 1 < 2 ^ 64 then
          searchLoop k retry fuel (i + 1) (after a it) (merge [] 0 (got ++ q)).1 (merge [] 0 (got ++ q)).2
        else R.err .bumpOffset
      else R.err .conversion := by
  rw [searchLoop, hk]
  simp only
  rw [extractItems_holds buf q 0 _ _ hh, ← merge_append]
  simp only
  have hc : ¬ (!retry || q.length == 0) = true := by
    rw [hr.2 hon]
    simp [hq]
  rw [if_neg hc]
  obtain ⟨hd, hd'⟩ := largest_exists (got := got ++ q) (by simp [hq])
  rw [hd']
  simp only
  obtain ⟨it', h1, rfl⟩ := largest_merge hd'
  have he := largest_key hl h1
  simp only [keyOf, Prod.mk.injEq] at he
  obtain ⟨e1, e2, e3⟩ := he
  simp only [after, e1, e2, e3]

theorem loop_of_talk (k : Kernel) (on : Prop) (retry : Bool) (hr : retry = true ↔ on) {i : Nat} {a : SearchArgs}
    {got all : List Item} (h : Talk k on i a got all) :
    ∃ fuel, searchLoop k retry fuel i a (merge [] 0 got).1 (merge [] 0 got).2 = .ok (merge [] 0 all) := by
  induction h with
  | @last i a got buf q hk hh hc =>
    refine ⟨1, ?_⟩
    rw [searchLoop, hk]
    simp only
    rw [extractItems_holds buf q 0 _ _ hh, ← merge_append]
    simp only
    have hc' : (!retry || q.length == 0) = true := by
      simp only [Bool.or_eq_true, Bool.not_eq_true', beq_iff_eq, List.length_eq_zero_iff]
      rw [← hr] at hc
      simpa using hc
    rw [if_pos hc']
  | more hk hh hon hq hl h1 h2 _ ih =>
    obtain ⟨fuel, ih⟩ := ih
    refine ⟨fuel + 1, ?_⟩
    rw [loop_first k on retry hr fuel _ _ _ _ _ hk hh hon hq _ hl, if_pos h1, if_pos h2, ih]

theorem talk_fails_of_loop (k : Kernel) (on : Prop) (retry : Bool) (hr : retry = true ↔ on) : ∀ (fuel i : Nat) (a : SearchArgs)
    (got : List Item) (e : Err),
    searchLoop k retry fuel i a (merge [] 0 got).1 (merge [] 0 got).2 = R.err e → TalkFails k on i a got e.text := by
  intro fuel
  induction fuel with
  | zero => intro i a got r h; cases h
  | succ fuel ih =>
    intro i a got e h
    cases hk : k i a with
    | errno =>
      rw [searchLoop, hk] at h
      cases h
      exact .errno hk
    | data n buf =>
      cases hx : extractItems buf n 0 (merge [] 0 got).1 (merge [] 0 got).2 with
      | error f =>
        rw [searchLoop, hk] at h
        simp only at h
        rw [hx] at h
        cases h
        obtain ⟨q, h1, h2, h3⟩ := extractItems_stops buf n 0 _ _ e hx
        simp only [Nat.zero_add] at h3
        rcases h3 with ⟨rfl, h3⟩ | ⟨rfl, h3, h4⟩
        · exact .noHeader hk h2 h1 h3
        · exact .noPayload hk h2 h1 h3 h4
      | ok r' =>
        obtain ⟨q, hq, hh, hr'⟩ := extractItems_inv buf n 0 _ _ r' hx
        rw [← merge_append] at hr'
        subst hq
        by_cases hc : (!retry || q.length == 0) = true
        · rw [searchLoop, hk] at h
          simp only at h
          rw [hx] at h
          simp only at h
          rw [if_pos hc] at h
          cases h
        · simp only [Bool.or_eq_true, Bool.not_eq_true', beq_iff_eq, List.length_eq_zero_iff, not_or] at hc
          have hon : on := hr.1 (by simpa using hc.1)
          obtain ⟨hd, hd'⟩ := largest_exists (got := got ++ q) (by simp [hc.2])
          obtain ⟨it, h1, rfl⟩ := largest_merge hd'
          rw [loop_first k on retry hr fuel i a got q buf hk hh hon hc.2 it h1] at h
          by_cases h2 : it.1.ty < 256
          · rw [if_pos h2] at h
            by_cases h3 : it.1.offset + 1 < 2 ^ 64
            · rw [if_pos h3] at h
              exact .more hk hh hon hc.2 h1 h2 h3 (ih _ _ _ _ h)
            · rw [if_neg h3] at h
              cases h
              exact .offset hk hh hon hc.2 h1 h2 (by omega)
          · rw [if_neg h2] at h
            cases h
            exact .type hk hh hon hc.2 h1 (by omega)

theorem loop_of_talk_fails (k : Kernel) (on : Prop) (retry : Bool) (hr : retry = true ↔ on) {i : Nat} {a : SearchArgs}
    {got : List Item} {m : Option Str} (h : TalkFails k on i a got m) :
    ∃ fuel e, searchLoop k retry fuel i a (merge [] 0 got).1 (merge [] 0 got).2 = R.err e ∧ e.text = m := by
  induction h with
  | errno hk => exact ⟨1, .ioctl, by rw [searchLoop, hk], rfl⟩
  | noHeader hk hh hn hb =>
    refine ⟨1, .searchShort false, ?_, rfl⟩
    rw [searchLoop, hk]
    simp only
    rw [stops_extractItems _ false _ _ 0 _ _ hn hh (.inl ⟨rfl, by simpa using hb⟩)]
  | noPayload hk hh hn hb hb' =>
    refine ⟨1, .searchShort true, ?_, rfl⟩
    rw [searchLoop, hk]
    simp only
    rw [stops_extractItems _ true _ _ 0 _ _ hn hh (.inr ⟨rfl, by simpa using hb, by simpa using hb'⟩)]
  | type hk hh hon hq hl ht =>
    refine ⟨1, .conversion, ?_, rfl⟩
    rw [loop_first k on retry hr 0 _ _ _ _ _ hk hh hon hq _ hl, if_neg (by omega)]
  | offset hk hh hon hq hl ht ho =>
    refine ⟨1, .bumpOffset, ?_, rfl⟩
    rw [loop_first k on retry hr 0 _ _ _ _ _ hk hh hon hq _ hl, if_pos ht, if_neg (by omega)]
  | more hk hh hon hq hl h1 h2 _ ih =>
    obtain ⟨fuel, e, ih, he⟩ := ih
    refine ⟨fuel + 1, e, ?_, he⟩
    rw [loop_first k on retry hr fuel _ _ _ _ _ hk hh hon hq _ hl, if_pos h1, if_pos h2, ih]

/-! ### repeated items -/

theorem repeated_iff (all : List Item) (n : Nat) : Repeated n all ↔ (merge [] 0 all).2 = n := by
  have nd := merge_nodup all [] 0 (by simp)
  have hm := merge_headers all [] 0
  have ht := merge_total all [] 0
  simp only [List.map_nil, List.not_mem_nil, false_or] at hm
  simp only [List.length_nil, Nat.zero_add] at ht
  constructor
  · rintro ⟨hs, h1, h2, h3⟩
    have a1 : hs.length ≤ ((merge [] 0 all).1.map (·.1)).length :=
      (List.subperm_of_subset h1 (fun x hx => (hm x).2 ((h2 x).1 hx))).length_le
    have a2 : ((merge [] 0 all).1.map (·.1)).length ≤ hs.length :=
      (List.subperm_of_subset nd (fun x hx => (h2 x).2 ((hm x).1 hx))).length_le
    rw [List.length_map] at a1 a2
    omega
  · intro h
    exact ⟨(merge [] 0 all).1.map (·.1), nd, hm, by rw [List.length_map]; omega⟩

theorem distinct_iff (all : List Item) : (all.map (·.1)).Nodup ↔ (merge [] 0 all).2 = 0 := by
  constructor
  · intro h
    rw [merge_distinct all [] 0 (by simpa using h)]
  · intro h
    have h1 := merge_all all [] 0 h
    have h2 := merge_nodup all [] 0 (by simp)
    rw [h1] at h2
    simpa using h2

theorem distinct_kept {all : List Item} (h : (all.map (·.1)).Nodup) : merge [] 0 all = (all, 0) := by
  have := merge_distinct all [] 0 (by simpa using h)
  simpa using this

/-! ### contents -/


/-- the kinds, spelled out -/
theorem knownKinds_types : knownKinds.map (·.ty) = [0, 1, 12, 13, 24, 48, 72, 84, 96, 108, 128, 132, 144, 156, 168, 169,
    192, 198, 204, 216, 228, 240, 242, 244, 249, 250, 248] := by rfl

theorem nodup_map_inj {α β : Type} (f : α → β) : ∀ {l : List α}, (l.map f).Nodup → ∀ {x y : α}, x ∈ l → y ∈ l →
    f x = f y → x = y := by
  intro l
  induction l with
  | nil => intro _ x y h; simp at h
  | cons a l ih =>
    intro nd x y hx hy e
    rw [List.map_cons, List.nodup_cons] at nd
    rcases List.mem_cons.1 hx with hx1 | hx1 <;> rcases List.mem_cons.1 hy with hy1 | hy1
    · rw [hx1, hy1]
    · subst hx1; exact absurd (List.mem_map.2 ⟨y, hy1, e.symm⟩) nd.1
    · subst hy1; exact absurd (List.mem_map.2 ⟨x, hx1, e⟩) nd.1
    · exact ih nd.2 hx1 hy1 e

theorem knownKinds_unique {k k' : ItemKind} (h : k ∈ knownKinds) (h' : k' ∈ knownKinds) (e : k.ty = k'.ty) : k = k' :=
  nodup_map_inj _ (by rw [knownKinds_types]; decide) h h' e

theorem kind_find (oid ty off : Int) (k : ItemKind) :
    knownKinds.find? (fun k => k.matches oid ty off) = some k ↔ k ∈ knownKinds ∧ k.matches oid ty off = true := by
  constructor
  · intro h
    exact ⟨List.mem_of_find?_eq_some h, List.find?_some (p := fun k : ItemKind => k.matches oid ty off) h⟩
  · rintro ⟨h1, h2⟩
    cases h : knownKinds.find? (fun k => k.matches oid ty off) with
    | none =>
      rw [List.find?_eq_none] at h
      exact absurd h2 (h k h1)
    | some k' =>
      have h3 := List.mem_of_find?_eq_some h
      have h4 := List.find?_some (p := fun k : ItemKind => k.matches oid ty off) h
      simp only [ItemKind.matches, Bool.and_eq_true, beq_iff_eq] at h2 h4
      rw [knownKinds_unique h1 h3 (by rw [← h2.1.1, ← h4.1.1])]

theorem kinds_eq : knownKinds = [
  { layout := s!' "btrfs_free_space_header", ty := 0, oid := some (2 ^ 64 - 11) },
  { layout := s!' "btrfs_inode_item", ty := 1, off := some 0 },
  { layout := s!' "btrfs_inode_ref", ty := 12 },
  { layout := s!' "btrfs_inode_extref", ty := 13 },
  { layout := s!' "btrfs_dir_item", ty := 24 },
  { layout := s!' "btrfs_orphan_item", ty := 48, oid := some (2 ^ 64 - 5) },
  { layout := s!' "btrfs_dir_log_item", ty := 72 },
  { layout := s!' "btrfs_dir_item", ty := 84 },
  { layout := s!' "btrfs_dir_item", ty := 96 },
  { layout := s!' "btrfs_file_extent_item", ty := 108 },
  { layout := s!' "btrfs_csum_item", ty := 128, oid := some (2 ^ 64 - 10) },
  { layout := s!' "btrfs_root_item", ty := 132 },
  { layout := s!' "btrfs_roof_ref", ty := 144 },
  { layout := s!' "btrfs_roof_ref", ty := 156 },
  { layout := s!' "btrfs_extent_item", ty := 168 },
  { layout := s!' "btrfs_extent_item", ty := 169 },
  { layout := s!' "btrfs_block_group_item", ty := 192 },
  { layout := s!' "btrfs_free_space_info", ty := 198 },
  { layout := s!' "btrfs_dev_extent", ty := 204 },
  { layout := s!' "btrfs_dev_item", ty := 216, oid := some 1 },
  { layout := s!' "btrfs_chunk", ty := 228, oid := some 256 },
  { layout := s!' "btrfs_qgroup_status_item", ty := 240, oid := some 0, off := some 0 },
  { layout := s!' "btrfs_qgroup_info_item", ty := 242, oid := some 0 },
  { layout := s!' "btrfs_qgroup_limit_item", ty := 244, oid := some 0 },
  { layout := s!' "btrfs_dev_stats_item", ty := 249, oid := some 0 },
  { layout := s!' "btrfs_dev_replace_item", ty := 250 },
  { layout := s!' "btrfs_balance_item", ty := 248, oid := some 4, off := some 0 }] := by rfl

set_option linter.unusedSimpArgs false in
theorem kinds_found (oid ty off : Int) :
    (knownKinds.find? fun k => k.matches oid ty off).map (·.layout) = (structForKey oid ty off).map (·.name) := by
  rw [structForKey_name, kinds_eq]
  by_cases h : ∃ k ∈ knownKinds, ty = k.ty
  · obtain ⟨k, hk, rfl⟩ := h
    rw [kinds_eq] at hk
    simp only [List.mem_cons, List.not_mem_nil, or_false] at hk
    rcases hk with h | h | h | h | h | h | h | h | h | h | h | h | h | h | h | h | h | h | h | h | h | h | h |
      h | h | h | h <;> subst h
    all_goals simp only [List.find?, ItemKind.matches, Option.all]
    all_goals simp
    all_goals (repeat' split) <;> simp_all
  · have h : ∀ k ∈ knownKinds, ty ≠ k.ty := fun k hk he => h ⟨k, hk, he⟩
    rw [← kinds_eq]
    have hd : knownKinds.find? (fun k => k.matches oid ty off) = none := by
      rw [List.find?_eq_none]
      intro k hk
      have := h k hk
      simp [ItemKind.matches, this]
    rw [hd]
    rw [kinds_eq] at h
    simp only [List.forall_mem_cons, List.not_mem_nil, false_imp_iff, implies_true, and_true] at h
    simp [h]

theorem holds_struct (h : Header) (name : Str) :
    HoldsStruct h name ↔ (structForKey h.objectid h.ty h.offset).map (·.name) = some name := by
  rw [← kinds_found, Option.map_eq_some_iff]
  constructor
  · rintro ⟨k, h1, h2, h3⟩
    exact ⟨k, (kind_find ..).2 ⟨h1, h2⟩, h3⟩
  · rintro ⟨k, h1, h3⟩
    obtain ⟨h1, h2⟩ := (kind_find ..).1 h1
    exact ⟨k, h1, h2, h3⟩

/-- the struct an item holds, from the table -/
theorem holds_struct_iff (h : Header) (s : StructDef) (hs : s ∈ structs) :
    HoldsStruct h s.name ↔ structForKey h.objectid h.ty h.offset = some s := by
  rw [holds_struct, Option.map_eq_some_iff]
  constructor
  · rintro ⟨s', h1, h2⟩
    have := findStruct_self s hs
    rw [← h2, findStruct_self s' (structForKey_mem h1)] at this
    rw [h1, this]
  · intro h1
    exact ⟨s, h1, rfl⟩

theorem holds_no_struct (h : Header) :
    (∀ name, ¬ HoldsStruct h name) ↔ structForKey h.objectid h.ty h.offset = none := by
  simp only [holds_struct]
  cases structForKey h.objectid h.ty h.offset with
  | none => simp
  | some s => simp

/-- payloads come from a buffer -/
def Small (items : List Item) : Prop := ∀ it ∈ items, it.2.length < 2 ^ 63

theorem contents_iff (b : Build) : ∀ (items : List Item), Small items → ∀ (vs : List Value),
    decodeItems b items = .ok vs ↔ Contents items vs := by
  intro items
  induction items with
  | nil =>
    intro _ vs
    constructor
    · intro h; cases h; exact .nil
    · intro h; cases h; rfl
  | cons it items ih =>
    obtain ⟨hd, payload⟩ := it
    intro hsm vs
    have ih := ih (fun it h => hsm it (by simp [h]))
    have hp : payload.length < 2 ^ 63 := hsm (hd, payload) (by simp)
    cases hk : structForKey hd.objectid hd.ty hd.offset with
    | none =>
      have : decodeItems b ((hd, payload) :: items) = decodeItems b items := by simp only [decodeItems, hk]
      rw [this, ih]
      constructor
      · exact .skip ((holds_no_struct hd).2 hk)
      · intro h
        cases h with
        | skip _ h => exact h
        | item hs h1 _ _ => exact absurd h1 ((holds_no_struct hd).2 hk _)
    | some s =>
      have hs := structForKey_mem hk
      simp only [decodeItems, hk]
      constructor
      · intro h
        obtain ⟨sv, h1, h2⟩ := bind_ok h
        obtain ⟨ws, h3, h4⟩ := bind_ok h2
        cases h4
        obtain ⟨e1, e2, h5⟩ := (read_iff b s hs _ payload (by omega) sv).1 h1
        rw [e1, e2]
        exact .item hs ((holds_struct_iff hd s hs).2 hk) h5 ((ih _).1 h3)
      · intro h
        cases h with
        | skip h _ => exact absurd ((holds_struct_iff hd s hs).2 hk) (h _)
        | @item _ _ s' out _ vs hs' h1 h2 h3 =>
          have := (holds_struct_iff hd s' hs').1 h1
          rw [hk] at this
          cases this
          rw [(read_iff b s hs _ payload (by omega) ⟨s.name, some (hd.objectid, hd.ty, hd.offset), out⟩).2 ⟨rfl, rfl, h2⟩]
          simp only [bind, Except.bind]
          rw [(ih _).2 h3]

theorem content_fails_iff (b : Build) (m : Option Str) : ∀ (items : List Item), Small items →
    ((∃ e, decodeItems b items = R.err e ∧ e.text = m) ↔ ∃ t, m = some t ∧ ContentFails items t) := by
  intro items
  induction items with
  | nil =>
    intro _
    constructor
    · rintro ⟨e, h, -⟩; cases h
    · rintro ⟨t, -, h⟩; cases h
  | cons it items ih =>
    obtain ⟨hd, payload⟩ := it
    intro hsm
    have hsm' : Small items := fun it h => hsm it (by simp [h])
    have ih := ih hsm'
    have hp : payload.length < 2 ^ 63 := hsm (hd, payload) (by simp)
    cases hk : structForKey hd.objectid hd.ty hd.offset with
    | none =>
      have : decodeItems b ((hd, payload) :: items) = decodeItems b items := by simp only [decodeItems, hk]
      rw [this, ih]
      constructor
      · rintro ⟨t, h1, h2⟩
        exact ⟨t, h1, .skip ((holds_no_struct hd).2 hk) h2⟩
      · rintro ⟨t, h1, h⟩
        refine ⟨t, h1, ?_⟩
        cases h with
        | skip _ h => exact h
        | here hs h1 _ => exact absurd h1 ((holds_no_struct hd).2 hk _)
        | later hs h1 _ _ => exact absurd h1 ((holds_no_struct hd).2 hk _)
    | some s =>
      have hs := structForKey_mem hk
      simp only [decodeItems, hk]
      have hn := (holds_struct_iff hd s hs).2 hk
      constructor
      · rintro ⟨e, h, he⟩
        rcases bind_err h with h | ⟨sv, h1, h2⟩
        · obtain ⟨t, h1, h2⟩ := read_fails b s hs _ payload hp e h
          exact ⟨t, by rw [← he, h1], .here hs hn h2⟩
        · rcases bind_err h2 with h2 | ⟨ws, _, h4⟩
          · obtain ⟨t, h3, h4⟩ := ih.1 ⟨e, h2, he⟩
            exact ⟨t, h3, .later hs hn ((read_iff b s hs _ payload (by omega) sv).1 h1).2.2 h4⟩
          · cases h4
      · rintro ⟨t, rfl, h⟩
        cases h with
        | skip h _ => exact absurd hn (h _)
        | @here _ _ s' _ _ hs' h1 h2 =>
          have := (holds_struct_iff hd s' hs').1 h1
          rw [hk] at this
          cases this
          obtain ⟨e, h3, h4⟩ := fails_read b s hs (some (hd.objectid, hd.ty, hd.offset)) payload hp t h2
          refine ⟨e, ?_, h4⟩
          rw [h3]
          rfl
        | @later _ _ s' out _ _ hs' h1 h2 h3 =>
          have := (holds_struct_iff hd s' hs').1 h1
          rw [hk] at this
          cases this
          obtain ⟨e, h4, h5⟩ := ih.2 ⟨t, rfl, h3⟩
          refine ⟨e, ?_, h5⟩
          rw [(read_iff b s hs _ payload (by omega) ⟨s.name, some (hd.objectid, hd.ty, hd.offset), out⟩).2 ⟨rfl, rfl, h2⟩]
          simp only [bind, Except.bind]
          rw [h4]

theorem holds_small {buf : Mem} : ∀ {q : List Item} {off : Nat}, Holds buf off q → Small q := by
  intro q
  induction q with
  | nil => intro off _; exact fun _ h => by simp at h
  | cons it q ih =>
    intro off h
    obtain ⟨hd, payload⟩ := it
    simp only [Holds] at h
    intro x hx
    rcases List.mem_cons.1 hx with rfl | hx
    · have := h.1
      simp only [bufSize] at this
      show payload.length < 2 ^ 63
      omega
    · exact ih h.2.2.2.2.2.2.2.2 x hx

theorem talk_small {k : Kernel} {on : Prop} {i : Nat} {a : SearchArgs} {got all : List Item} (h : Talk k on i a got all)
    (hg : Small got) : Small all := by
  have app : ∀ {p q : List Item}, Small p → Small q → Small (p ++ q) := by
    intro p q h1 h2 x hx
    rcases List.mem_append.1 hx with hx | hx
    · exact h1 x hx
    · exact h2 x hx
  induction h with
  | last _ hh _ => exact app hg (holds_small hh)
  | more _ hh _ _ _ _ _ _ ih => exact ih (app hg (holds_small hh))

/-! ### the whole search -/

theorem retry_eq (k : Kernel) (fuel : Nat) (a : SearchArgs) : ∃ retry : Bool, (retry = true ↔ Bounded a) ∧
    ∀ fuel, Fs.search fuel (.mounted k) a =
      match searchLoop k retry fuel 0 a [] 0 with
      | .error e => .error e
      | .ok (ret, collisions) => if collisions ≠ 0 then R.err (.collisions collisions) else .ok ret := by
  by_cases h : Bounded a
  · exact ⟨true, by simp [h], fun fuel => search_bounded fuel k a h⟩
  · exact ⟨false, by simp [h], fun fuel => search_unbounded fuel k a h⟩

theorem searched_iff (k : Kernel) (a : SearchArgs) (items : List Item) :
    (∃ fuel, Fs.search fuel (.mounted k) a = .ok items) ↔
      Talk k (Bounded a) 0 a [] items ∧ (items.map (·.1)).Nodup := by
  obtain ⟨retry, hr, hs⟩ := retry_eq k 0 a
  constructor
  · rintro ⟨fuel, h⟩
    rw [hs] at h
    cases hl : searchLoop k retry fuel 0 a [] 0 with
    | error e => rw [hl] at h; cases h
    | ok r =>
      rw [hl] at h
      obtain ⟨all, h1, rfl⟩ := talk_of_loop k (Bounded a) retry hr fuel 0 a [] r hl
      dsimp only at h
      by_cases hc : (merge [] 0 all).2 = 0
      · rw [if_neg (by simp [hc])] at h
        have hd := (distinct_iff all).2 hc
        rw [distinct_kept hd] at h
        cases h
        exact ⟨h1, hd⟩
      · rw [if_pos hc] at h; cases h
  · rintro ⟨h1, h2⟩
    obtain ⟨fuel, hl⟩ := loop_of_talk k (Bounded a) retry hr h1
    refine ⟨fuel, ?_⟩
    have hl : searchLoop k retry fuel 0 a [] 0 = .ok (merge [] 0 items) := hl
    rw [hs, hl, distinct_kept h2]
    rfl

theorem search_failed_iff (k : Kernel) (a : SearchArgs) (m : Option Str) :
    (∃ fuel e, Fs.search fuel (.mounted k) a = R.err e ∧ e.text = m) ↔
      TalkFails k (Bounded a) 0 a [] m ∨ ∃ items n, Talk k (Bounded a) 0 a [] items ∧ Repeated n items ∧ n ≠ 0 ∧
        m = some (s!' "Saw " ++ numeral n ++ s!' " identical payloads -- this should not be possible") := by
  obtain ⟨retry, hr, hs⟩ := retry_eq k 0 a
  constructor
  · rintro ⟨fuel, e, h, rfl⟩
    rw [hs] at h
    cases hl : searchLoop k retry fuel 0 a [] 0 with
    | error f =>
      rw [hl] at h
      cases h
      exact .inl (talk_fails_of_loop k (Bounded a) retry hr fuel 0 a [] e hl)
    | ok r =>
      rw [hl] at h
      obtain ⟨all, h1, rfl⟩ := talk_of_loop k (Bounded a) retry hr fuel 0 a [] r hl
      dsimp only at h
      by_cases hc : (merge [] 0 all).2 = 0
      · rw [if_neg (by simp [hc])] at h; cases h
      · rw [if_pos hc] at h
        cases h
        exact .inr ⟨all, _, h1, (repeated_iff _ _).2 rfl, hc, rfl⟩
  · rintro (h | ⟨items, n, h1, h2, h3, rfl⟩)
    · obtain ⟨fuel, e, h1, h2⟩ := loop_of_talk_fails k (Bounded a) retry hr h
      refine ⟨fuel, e, ?_, h2⟩
      have h1 : searchLoop k retry fuel 0 a [] 0 = R.err e := h1
      rw [hs, h1]
    · obtain ⟨fuel, hl⟩ := loop_of_talk k (Bounded a) retry hr h1
      have hl : searchLoop k retry fuel 0 a [] 0 = .ok (merge [] 0 items) := hl
      have hn := (repeated_iff _ _).1 h2
      refine ⟨fuel, .collisions n, ?_, rfl⟩
      rw [hs, hl]
      dsimp only
      rw [hn, if_pos h3]

/-- `search()`, once its arguments are evaluated -/
theorem searchFn_eq (cfg : Cfg) (fs : Option Fs) (tree : Int) (key : Value) :
    searchFn cfg fs [.ok (.int tree), .ok key] = (do
      let key ← key.asStruct
      ensure (key.name == BTRFS_SEARCH_KEY.name) .notSearchKey
      match fs with
      | none => R.err .noFilesystem
      | some fs =>
        let sa ← searchArgs tree key
        let chunks ← fs.search cfg.fuel sa
        let vs ← decodeItems cfg.build chunks
        .ok (.array vs false)) := rfl

/-- **the search function follows the rules** -/
theorem search_iff (cfg : Cfg) (fs : Option Fs) (tree : Int) (key v : Value) :
    (∃ n, searchFn (cfg.steps n) fs [.ok (.int tree), .ok key] = .ok v) ↔ SearchGives fs tree key v := by
  constructor
  · rintro ⟨n, h⟩
    rw [searchFn_eq] at h
    obtain ⟨sv, h1, h2⟩ := bind_ok h
    obtain ⟨_, h3, h4⟩ := bind_ok h2
    have hn := ensure_inv h3
    cases fs with
    | none => cases h4
    | some fs =>
      obtain ⟨a, h5, h6⟩ := bind_ok h4
      obtain ⟨items, h7, h8⟩ := bind_ok h6
      obtain ⟨vs, h9, h10⟩ := bind_ok h8
      cases h10
      cases fs with
      | unmounted img => cases h7
      | mounted k =>
        obtain ⟨t1, t2⟩ := (searched_iff k a items).1 ⟨_, h7⟩
        have := asStruct_inv h1
        subst this
        obtain ⟨nm, own, fl⟩ := sv
        have hn : nm = s!' "_btrfs_ioctl_search_key" := by simpa [BTRFS_SEARCH_KEY] using hn
        subst hn
        exact .mk ((request_iff tree _ a).1 h5) t1 t2 ((contents_iff _ items (talk_small t1 (by simp [Small])) vs).1 h9)
  · intro h
    cases h with
    | @mk k _ own fl a items vs h1 h2 h3 h4 =>
      obtain ⟨fuel, h5⟩ := (searched_iff k a items).2 ⟨h2, h3⟩
      refine ⟨fuel, ?_⟩
      rw [searchFn_eq]
      have h1 := (request_iff tree ⟨s!' "_btrfs_ioctl_search_key", own, fl⟩ a).2 h1
      have h4 := (contents_iff cfg.build items (talk_small h2 (by simp [Small])) vs).2 h4
      have e : ((cfg.steps fuel).fuel) = fuel := rfl
      have e' : ((cfg.steps fuel).build) = cfg.build := rfl
      simp only [Value.asStruct, bind, Except.bind, e, e', h1, h5, h4]
      rfl

/-- **and its messages** -/
theorem search_fails_iff (cfg : Cfg) (fs : Fs) (tree : Int) (own : Option (Int × Int × Int)) (fl : List (Str × Value))
    (m : Option Str) :
    (∃ n e, searchFn (cfg.steps n) (some fs)
      [.ok (.int tree), .ok (.struct s!' "_btrfs_ioctl_search_key" own fl)] = R.err e ∧ e.text = m) ↔
      SearchFails fs tree (.struct s!' "_btrfs_ioctl_search_key" own fl) m := by
  have eq : ∀ n, searchFn (cfg.steps n) (some fs)
      [.ok (.int tree), .ok (.struct s!' "_btrfs_ioctl_search_key" own fl)] = (do
        let sa ← searchArgs tree ⟨s!' "_btrfs_ioctl_search_key", own, fl⟩
        let chunks ← fs.search n sa
        let vs ← decodeItems cfg.build chunks
        .ok (.array vs false)) := fun n => rfl
  simp only [eq]
  constructor
  · rintro ⟨n, e, h, rfl⟩
    rcases bind_err h with h | ⟨a, h1, h2⟩
    · exact .request ((request_fails_iff tree _ _).1 ⟨e, h, rfl⟩)
    · have hr := (request_iff tree _ a).1 h1
      rcases bind_err h2 with h2 | ⟨items, h3, h4⟩
      · cases fs with
        | unmounted img => cases h2; exact .unmounted hr
        | mounted k =>
          rcases (search_failed_iff k a e.text).1 ⟨n, e, h2, rfl⟩ with h3 | ⟨items, c, h3, h4, h5, h6⟩
          · exact .talk hr h3
          · rw [h6]; exact .repeated hr h3 h4 h5
      · cases fs with
        | unmounted img => cases h3
        | mounted k =>
          obtain ⟨t1, t2⟩ := (searched_iff k a items).1 ⟨_, h3⟩
          rcases bind_err h4 with h4 | ⟨vs, _, h5⟩
          · obtain ⟨t, h5, h6⟩ := (content_fails_iff _ e.text items (talk_small t1 (by simp [Small]))).1 ⟨e, h4, rfl⟩
            rw [h5]
            exact .content hr t1 t2 h6
          · cases h5
  · intro h
    cases h with
    | request h =>
      obtain ⟨e, h1, h2⟩ := (request_fails_iff tree ⟨s!' "_btrfs_ioctl_search_key", own, fl⟩ m).2 h
      refine ⟨0, e, ?_, h2⟩
      rw [h1]
      rfl
    | unmounted h =>
      refine ⟨0, .searchUnmounted, ?_, rfl⟩
      rw [(request_iff tree ⟨s!' "_btrfs_ioctl_search_key", own, fl⟩ _).2 h]
      rfl
    | talk h1 h2 =>
      obtain ⟨n, e, h3, h4⟩ := (search_failed_iff _ _ m).2 (.inl h2)
      refine ⟨n, e, ?_, h4⟩
      rw [(request_iff tree ⟨s!' "_btrfs_ioctl_search_key", own, fl⟩ _).2 h1]
      simp only [bind, Except.bind]
      rw [h3]
    | repeated h1 h2 h3 h4 =>
      obtain ⟨n, e, h3, h4⟩ := (search_failed_iff _ _ _).2 (.inr ⟨_, _, h2, h3, h4, rfl⟩)
      refine ⟨n, e, ?_, h4⟩
      rw [(request_iff tree ⟨s!' "_btrfs_ioctl_search_key", own, fl⟩ _).2 h1]
      simp only [bind, Except.bind]
      rw [h3]
    | content h1 h2 h3 h4 =>
      obtain ⟨n, h5⟩ := (searched_iff _ _ _).2 ⟨h2, h3⟩
      obtain ⟨e, h6, h7⟩ := (content_fails_iff cfg.build _ _ (talk_small h2 (by simp [Small]))).2 ⟨_, rfl, h4⟩
      refine ⟨n, e, ?_, h7⟩
      rw [(request_iff tree ⟨s!' "_btrfs_ioctl_search_key", own, fl⟩ _).2 h1]
      simp only [bind, Except.bind]
      rw [h5]
      dsimp only
      rw [h6]

end Btrd
