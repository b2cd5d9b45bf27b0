/-
The search loop against a kernel that keeps its promise call by call, while its trees change (C102, C103).
-/
import Verif.Spec.Changing
import Verif.Lemmas.Search
import Verif.Lemmas.Decode
import Batteries.Data.List.Perm

namespace Btrd
open Spec

/-- the items so far all come before anything these parameters ask for -/
def Past (p : List Item) (a : SearchArgs) : Prop := ∀ x ∈ p, ¬ KeyLt (fromKey a) (keyOf x) ∧ keyOf x ≠ fromKey a

theorem Past.lt {p : List Item} {a : SearchArgs} (h : Past p a) {x it : Item} (hx : x ∈ p) (ha : Asked a it) :
    KeyLt (keyOf x) (keyOf it) := by
  obtain ⟨h1, h2⟩ := h x hx
  have h3 := ha.1
  simp only [fromKey, keyOf, KeyLt, ne_eq, Prod.mk.injEq] at *
  omega

/-- the parameters of the next request -/
def nextArgs (a : SearchArgs) (x : Item) : SearchArgs :=
  { a with minObjectid := x.1.objectid, minType := x.1.ty, minOffset := x.1.offset + 1 }

theorem past_next {p q : List Item} {a : SearchArgs} {x : Item}
    (hs : (p ++ (q ++ [x])).Pairwise (fun a b => KeyLt (keyOf a) (keyOf b))) : Past (p ++ (q ++ [x])) (nextArgs a x) := by
  intro y hy
  have : KeyLt (keyOf y) (keyOf x) ∨ keyOf y = keyOf x := by
    rw [← List.append_assoc, List.mem_append, List.mem_singleton] at hy
    rcases hy with hy | rfl
    · rw [← List.append_assoc, List.pairwise_append] at hs
      exact .inl (hs.2.2 y hy x (by simp))
    · exact .inr rfl
  simp only [nextArgs, fromKey, keyOf, KeyLt, ne_eq, Prod.mk.injEq] at this ⊢
  omega

theorem asked_next {a : SearchArgs} {x it : Item} (hx : Asked a x) : Asked (nextArgs a x) it ↔ Asked a it ∧ KeyLt (keyOf x) (keyOf it) := by
  simp only [Asked, nextArgs, keyOf, KeyLt] at hx ⊢
  omega

theorem from_next {a : SearchArgs} {x : Item} (hx : Asked a x) : KeyLt (fromKey a) (fromKey (nextArgs a x)) := by
  have := hx.1
  simp only [nextArgs, fromKey, keyOf, KeyLt] at this ⊢
  omega

theorem mem_matching {trees : Trees} {a : SearchArgs} {it : Item} : it ∈ matching trees a ↔ it ∈ trees a.treeId ∧ Asked a it := by
  simp [matching]

/-- how a search comes to its end -/
inductive SearchEnd (fuel : Nat) (p : List Item) (c : Nat) (as : List SearchArgs) (qs : List (List Item)) :
    R (List Item × Nat) → Prop where
  | done : qs.getLast? = some [] → SearchEnd fuel p c as qs (.ok (p ++ qs.flatten, c))
  | bump {x} : qs.flatten.getLast? = some x → 2 ^ 64 ≤ x.1.offset + 1 → SearchEnd fuel p c as qs (.error (.err .bumpOffset))
  | cut : as.length = fuel → SearchEnd fuel p c as qs R.diverge

structure SearchCourse (k : Kernel) (trees : Nat → Trees) (fuel i : Nat) (a : SearchArgs) (p : List Item) (c : Nat)
    (as : List SearchArgs) (qs : List (List Item)) : Prop where
  asked : askedLoop k true fuel i a p c = as
  replied : Replied k i as qs
  held : ∀ n q, qs[n]? = some q → ∀ it ∈ q, it ∈ trees (i + n) a.treeId ∧ Asked a it
  sorted : (p ++ qs.flatten).Pairwise (fun a b => KeyLt (keyOf a) (keyOf b))
  forward : as.Pairwise (fun a b => KeyLt (fromKey a) (fromKey b))
  starts : ∀ b ∈ as, b = a ∨ KeyLt (fromKey a) (fromKey b)
  full : ∀ q ∈ qs.dropLast, q ≠ []
  onward : ∀ n q b, qs[n]? = some q → as[n + 1]? = some b → ∃ x, q.getLast? = some x ∧ b = nextArgs a x
  outcome : SearchEnd fuel p c as qs (searchLoop k true fuel i a p c)
  complete : ∀ r, searchLoop k true fuel i a p c = .ok r → ∀ K, (∀ n < as.length, ∃ it ∈ matching (trees (i + n)) a, keyOf it = K) →
    ∃ it ∈ qs.flatten, keyOf it = K
  small : ∀ b ∈ as, b = a ∨ b.minType < 2 ^ 8 ∧ b.minOffset < 2 ^ 64 ∧ ∃ x ∈ qs.flatten, b.minObjectid = x.1.objectid

theorem course {k : Kernel} {trees : Nat → Trees} (hk : HonoursEach k trees) (hw : OrderedEach trees) :
    ∀ (fuel i : Nat) (a : SearchArgs) (p : List Item) (c : Nat),
    p.Pairwise (fun a b => KeyLt (keyOf a) (keyOf b)) → Past p a →
    ∃ as qs, SearchCourse k trees fuel i a p c as qs := by
  intro fuel
  induction fuel with
  | zero =>
    intro i a p c hs _
    exact ⟨[], [], {
          asked := rfl, replied := .none i, held := (by simp), sorted := (by simpa using hs), forward := (by simp),
          starts := (by simp), full := (by simp), onward := (by simp), outcome := .cut rfl, complete := (fun r h => by cases h),
          small := (by simp) }⟩
  | succ fuel ih =>
    intro i a p c hs hp
    obtain ⟨buf, q, rest, hr, hh, hq, he⟩ := hk i a
    have hms : (matching (trees i) a).Pairwise (fun a b => KeyLt (keyOf a) (keyOf b)) := (hw i a.treeId).1.filter _
    have hpq : (p ++ q).Pairwise (fun a b => KeyLt (keyOf a) (keyOf b)) := by
      rw [List.pairwise_append]
      refine ⟨hs, ?_, fun x hx it hit => hp.lt hx (mem_matching.1 (show it ∈ matching (trees i) a by rw [hq]; simp [hit])).2⟩
      rw [hq, List.pairwise_append] at hms
      exact hms.1
    have hx := extractItems_holds buf q 0 p c hh
    rw [merge_distinct q p c (sorted_headers_nodup hpq)] at hx
    have hqm : ∀ it ∈ q, it ∈ trees i a.treeId ∧ Asked a it := fun it hit =>
      mem_matching.1 (show it ∈ matching (trees i) a by rw [hq]; simp [hit])
    rcases List.eq_nil_or_concat q with rfl | ⟨q', x, rfl⟩
    · have := he rfl
      subst this
      have hs1 : searchLoop k true (fuel + 1) i a p c = .ok (p, c) := by
        rw [searchLoop, hr]
        simp only [hx]
        simp
      refine ⟨[a], [[]], {
          asked := ?_, replied := .next hr hh (.none _), held := ?_, sorted := (by simpa using hs), forward := (by simp),
          starts := (by simp), full := (by simp), onward := (by simp), outcome := ?_, complete := ?_, small := (by simp) }⟩
      · rw [askedLoop, hr]
        simp only [hx]
        simp
      · intro n q hn it hit
        match n with
        | 0 => simp at hn; subst hn; cases hit
        | n + 1 => simp at hn
      · rw [hs1]
        have := SearchEnd.done (fuel := fuel + 1) (p := p) (c := c) (as := [a]) (qs := [[]]) rfl
        simpa using this
      · intro r _ K hK
        obtain ⟨it, hit, -⟩ := hK 0 (by simp)
        rw [Nat.add_zero, hq] at hit
        simp at hit
    · rw [List.concat_eq_append] at *
      have hxa : x ∈ trees i a.treeId ∧ Asked a x := hqm x (by simp)
      have hty : x.1.ty < 256 := (hw i a.treeId).2 x hxa.1
      have hlk : largestKey (p ++ (q' ++ [x])) = .ok x.1 := by
        rw [← List.append_assoc]
        apply largestKey_sorted
        simpa using hpq
      have hn : ((q' ++ [x]).length == 0) = false := by simp
      by_cases ho : x.1.offset + 1 < 2 ^ 64
      · have hs1 : searchLoop k true (fuel + 1) i a p c = searchLoop k true fuel (i + 1) (nextArgs a x) (p ++ (q' ++ [x])) c := by
          rw [searchLoop, hr]
          simp only [hx, hn, Bool.not_true, Bool.or_self, Bool.false_eq_true, if_false, hlk, if_pos hty, if_pos ho]
          rfl
        have ha1 : askedLoop k true (fuel + 1) i a p c = a :: askedLoop k true fuel (i + 1) (nextArgs a x) (p ++ (q' ++ [x])) c := by
          rw [askedLoop, hr]
          simp only [hx, hn, Bool.not_true, Bool.or_self, Bool.false_eq_true, if_false, hlk, if_pos hty, if_pos ho]
          rfl
        obtain ⟨as, qs, C⟩ := ih (i + 1) (nextArgs a x) (p ++ (q' ++ [x])) c hpq (past_next hpq)
        refine ⟨a :: as, (q' ++ [x]) :: qs, ?_⟩
        have hlt : ∀ b ∈ as, KeyLt (fromKey a) (fromKey b) := fun b hb => by
          rcases C.starts b hb with rfl | h
          · exact from_next hxa.2
          · exact (from_next hxa.2).trans h
        refine {
          asked := (by rw [ha1, C.asked]), replied := .next hr hh C.replied, held := ?_, sorted := ?_, forward := ?_, starts := ?_,
          full := ?_, onward := ?_, outcome := ?_, complete := ?_, small := ?_ }
        · intro n q hnq it hit
          match n with
          | 0 => simp only [List.getElem?_cons_zero, Option.some.injEq] at hnq; subst hnq; exact hqm it hit
          | n + 1 =>
            rw [List.getElem?_cons_succ] at hnq
            have := C.held n q hnq it hit
            rw [show i + (n + 1) = i + 1 + n by omega]
            exact ⟨this.1, ((asked_next hxa.2).1 this.2).1⟩
        · simpa using C.sorted
        · exact .cons hlt C.forward
        · intro b hb
          rcases List.mem_cons.1 hb with rfl | hb
          · exact .inl rfl
          · exact .inr (hlt b hb)
        · intro q hq
          match qs, hq with
          | [], hq => simp at hq
          | q1 :: qs, hq =>
            rw [List.dropLast_cons₂] at hq
            rcases List.mem_cons.1 hq with rfl | hq
            · simp
            · exact C.full q hq
        · intro n q b hn hb
          match n with
          | 0 =>
            simp only [List.getElem?_cons_zero, Option.some.injEq] at hn
            subst hn
            refine ⟨x, by simp, ?_⟩
            simp only [Nat.zero_add, List.getElem?_cons_succ] at hb
            match fuel, C.asked with
            | 0, h => rw [askedLoop] at h; subst h; simp at hb
            | fuel + 1, h => rw [askedLoop] at h; subst h; simpa using hb.symm
          | n + 1 =>
            rw [List.getElem?_cons_succ] at hn hb
            obtain ⟨y, hy, hb⟩ := C.onward n q b hn hb
            exact ⟨y, hy, hb⟩
        · rw [hs1]
          have := C.outcome
          generalize searchLoop k true fuel (i + 1) (nextArgs a x) (p ++ (q' ++ [x])) c = r at this
          cases this with
          | done h =>
            have h' := SearchEnd.done (fuel := fuel + 1) (p := p) (c := c) (as := a :: as) (qs := (q' ++ [x]) :: qs)
              (by rw [List.getLast?_cons, h]; rfl)
            simpa using h'
          | bump h h' => exact .bump (by rw [List.flatten_cons, List.getLast?_append, h]; rfl) h'
          | cut h => exact .cut (by simp [h])
        · intro r hr K hK
          rw [hs1] at hr
          obtain ⟨it, hit, rfl⟩ := hK 0 (by simp)
          rw [Nat.add_zero, hq, List.mem_append] at hit
          rcases hit with hit | hit
          · exact ⟨it, by rw [List.flatten_cons, List.mem_append]; exact .inl hit, rfl⟩
          · have hxit : KeyLt (keyOf x) (keyOf it) := by
              rw [hq, List.pairwise_append] at hms
              exact hms.2.2 x (by simp) it hit
            obtain ⟨it', h1, h2⟩ := C.complete r hr (keyOf it) fun n hn => by
              obtain ⟨jt, hj, e⟩ := hK (n + 1) (by simpa using hn)
              rw [show i + 1 + n = i + (n + 1) by omega]
              refine ⟨jt, mem_matching.2 ⟨(mem_matching.1 hj).1, (asked_next hxa.2).2 ⟨(mem_matching.1 hj).2, by rw [e]; exact hxit⟩⟩, e⟩
            exact ⟨it', by rw [List.flatten_cons, List.mem_append]; exact .inr h1, h2⟩
        · intro b hb
          rcases List.mem_cons.1 hb with rfl | hb
          · exact .inl rfl
          · refine .inr ?_
            rcases C.small b hb with rfl | ⟨h1, h2, y, hy, h3⟩
            · exact ⟨hty, ho, x, by simp, rfl⟩
            · exact ⟨h1, h2, y, by rw [List.flatten_cons, List.mem_append]; exact .inr hy, h3⟩
      · have hs1 : searchLoop k true (fuel + 1) i a p c = .error (.err .bumpOffset) := by
          rw [searchLoop, hr]
          simp only [hx, hn, Bool.not_true, Bool.or_self, Bool.false_eq_true, if_false, hlk, if_pos hty, if_neg ho]
        refine ⟨[a], [q' ++ [x]], {
          asked := ?_, replied := .next hr hh (.none _), held := ?_, sorted := (by simpa using hpq),
          forward := (by simp), starts := (by simp), full := (by simp), onward := (by simp), outcome := ?_, complete := ?_, small := (by simp) }⟩
        · rw [askedLoop, hr]
          simp only [hx, hn, Bool.not_true, Bool.or_self, Bool.false_eq_true, if_false, hlk, if_pos hty, if_neg ho]
        · intro n q hn it hit
          match n with
          | 0 => simp at hn; subst hn; exact hqm it hit
          | n + 1 => simp at hn
        · rw [hs1]
          exact .bump (x := x) (by simp) (by omega)
        · intro r h
          rw [hs1] at h
          cases h

/-! ### there are only so many keys -/

/-- keys as numbers -/
def rank (k : Key) : Nat := k.1 * 2 ^ 72 + k.2.1 * 2 ^ 64 + k.2.2

theorem rank_lt {a b : Key} (ha : a.2.1 < 2 ^ 8 ∧ a.2.2 < 2 ^ 64) (h : KeyLt a b) : rank a < rank b := by
  simp only [rank, KeyLt] at *
  omega

theorem rank_bound {a : Key} (h0 : a.1 < 2 ^ 64) (h1 : a.2.1 < 2 ^ 8) (h2 : a.2.2 < 2 ^ 64) : rank a < 2 ^ 136 := by
  simp only [rank]
  omega

theorem rising_length {N : Nat} : ∀ {l : List Nat}, l.Pairwise (· < ·) → (∀ x ∈ l, x < N) → l.length ≤ N := by
  have key : ∀ (l : List Nat) (m : Nat), l.Pairwise (· < ·) → (∀ x ∈ l, m ≤ x ∧ x < N) → m ≤ N → l.length ≤ N - m := by
    intro l
    induction l with
    | nil => intro m _ _ _; simp
    | cons x l ih =>
      intro m hp hm hmN
      rw [List.pairwise_cons] at hp
      have hx := hm x (by simp)
      have := ih (x + 1) hp.2 (fun y hy => ⟨hp.1 y hy, (hm y (by simp [hy])).2⟩) (by omega)
      simp only [List.length_cons]
      omega
  intro l hp hl
  have := key l 0 hp (fun x hx => ⟨Nat.zero_le _, hl x hx⟩) (Nat.zero_le _)
  omega

theorem holds_narrow {buf : Mem} : ∀ {q : List Item} {off : Nat}, Holds buf off q → ∀ it ∈ q, it.1.objectid < 2 ^ 64 := by
  intro q
  induction q with
  | nil => intro off _ it h; cases h
  | cons x q ih =>
    intro off h it hit
    obtain ⟨hd, pl⟩ := x
    rcases List.mem_cons.1 hit with rfl | hit
    · have := leAt_lt buf 8 (off + 8)
      rw [h.2.2.1] at this
      exact this
    · exact ih h.2.2.2.2.2.2.2.2 it hit

theorem replied_narrow {k : Kernel} {i : Nat} {as : List SearchArgs} {qs : List (List Item)} (h : Replied k i as qs) :
    ∀ it ∈ qs.flatten, it.1.objectid < 2 ^ 64 := by
  induction h with
  | none => simp
  | next _ hh _ ih =>
    intro it hit
    rw [List.flatten_cons, List.mem_append] at hit
    rcases hit with hit | hit
    · exact holds_narrow hh it hit
    · exact ih it hit

theorem holds_offset {buf : Mem} : ∀ {q : List Item} {off : Nat}, Holds buf off q → ∀ it ∈ q, it.1.offset < 2 ^ 64 := by
  intro q
  induction q with
  | nil => intro off _ it h; cases h
  | cons x q ih =>
    intro off h it hit
    obtain ⟨hd, pl⟩ := x
    rcases List.mem_cons.1 hit with rfl | hit
    · have := leAt_lt buf 8 (off + 16)
      rw [h.2.2.2.1] at this
      exact this
    · exact ih h.2.2.2.2.2.2.2.2 it hit

theorem replied_offset {k : Kernel} {i : Nat} {as : List SearchArgs} {qs : List (List Item)} (h : Replied k i as qs) :
    ∀ it ∈ qs.flatten, it.1.offset < 2 ^ 64 := by
  induction h with
  | none => simp
  | next _ hh _ ih =>
    intro it hit
    rw [List.flatten_cons, List.mem_append] at hit
    rcases hit with hit | hit
    · exact holds_offset hh it hit
    · exact ih it hit

/-- no more requests than keys -/
theorem course_length {k : Kernel} {trees : Nat → Trees} {fuel i : Nat} {a : SearchArgs} {p : List Item} {c : Nat}
    {as : List SearchArgs} {qs : List (List Item)} (C : SearchCourse k trees fuel i a p c as qs)
    (h0 : a.minObjectid < 2 ^ 64) (h1 : a.minType < 2 ^ 8) (h2 : a.minOffset < 2 ^ 64) : as.length ≤ 2 ^ 136 := by
  have hb : ∀ b ∈ as, b.minObjectid < 2 ^ 64 ∧ b.minType < 2 ^ 8 ∧ b.minOffset < 2 ^ 64 := by
    intro b hb
    rcases C.small b hb with rfl | ⟨h3, h4, x, hx, h5⟩
    · exact ⟨h0, h1, h2⟩
    · exact ⟨h5 ▸ replied_narrow C.replied x hx, h3, h4⟩
  have hl := rising_length (N := 2 ^ 136) (l := as.map fun b => rank (fromKey b)) (by
      rw [List.pairwise_map]
      exact C.forward.imp_of_mem fun {b b'} hm _ h => rank_lt ⟨(hb b hm).2.1, (hb b hm).2.2⟩ h) (by
      intro x hx
      obtain ⟨b, hm, rfl⟩ := List.mem_map.1 hx
      exact rank_bound (hb b hm).1 (hb b hm).2.1 (hb b hm).2.2)
  rwa [List.length_map] at hl

/-- the search ends -/
theorem searchLoop_each {k : Kernel} {trees : Nat → Trees} (hk : HonoursEach k trees) (hw : OrderedEach trees) (a : SearchArgs)
    (h0 : a.minObjectid < 2 ^ 64) (h1 : a.minType < 2 ^ 8) (h2 : a.minOffset < 2 ^ 64) (fuel : Nat) (hf : 2 ^ 136 < fuel) :
    searchLoop k true fuel 0 a [] 0 ≠ .error .diverge := by
  obtain ⟨as, qs, C⟩ := course hk hw fuel 0 a [] 0 .nil (by intro x hx; cases hx)
  have hl := course_length C h0 h1 h2
  have ho := C.outcome
  intro h
  rw [h] at ho
  generalize hr : (Except.error Fail.diverge : R (List Item × Nat)) = r at ho
  cases ho with
  | done => cases hr
  | bump => cases hr
  | cut h => omega

end Btrd
