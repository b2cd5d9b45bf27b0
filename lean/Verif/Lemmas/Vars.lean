/-
Helper lemmas about scoped variables.
-/
import Verif.Lemmas.EvalInd
import Verif.Spec.Scopes
import Verif.Lemmas.Arith

namespace Btrd
open Spec

section
variable {T : Type}

/-- the bindings of one variable, scope by scope -/
def slots (vs : Vars T) (x : Str) : Slots T := vs.map fun s => s x

theorem get_eq_read (vs : Vars T) (x : Str) : vs.get x = (slots vs x).read := by
  induction vs with
  | nil => rfl
  | cons s r ih =>
    simp only [Vars.get, slots, List.map_cons]
    cases h : s x with
    | none => simpa [Slots.read, slots] using ih
    | some v => simp [Slots.read]

theorem overwrite_none {vs : Vars T} {k : Str} {v : T} :
    vs.overwrite k v = none ↔ (slots vs k).bound = false := by
  induction vs with
  | nil => simp [Vars.overwrite, slots, Slots.bound]
  | cons s r ih =>
    simp only [Vars.overwrite, slots, List.map_cons, Slots.bound, List.any_cons]
    cases h : s k with
    | some v => simp
    | none =>
      simp only [slots, Slots.bound] at ih
      cases h' : Vars.overwrite r k v with
      | none => simp [ih.mp h']
      | some r' =>
        simp only [Option.isSome_none, Bool.false_or]
        constructor
        · simp
        · intro hb; rw [ih.mpr hb] at h'; simp at h'

theorem set_same (s : Scope T) (k : Str) (v : T) : s.set k v k = some v := by simp [Scope.set]
theorem set_other (s : Scope T) {k x : Str} (v : T) (h : x ≠ k) : s.set k v x = s x := by
  simp [Scope.set, h]

theorem overwrite_slots {vs vs' : Vars T} {k : Str} {v : T} (h : vs.overwrite k v = some vs') :
    slots vs' k = (slots vs k).update v ∧ ∀ x, x ≠ k → slots vs' x = slots vs x := by
  induction vs generalizing vs' with
  | nil => simp [Vars.overwrite] at h
  | cons s r ih =>
    simp only [Vars.overwrite] at h
    cases hs : s k with
    | some w =>
      simp only [hs, Option.some.injEq] at h
      subst h
      refine ⟨by simp [slots, set_same, hs, Slots.update], fun x hx => by simp [slots, set_other _ _ hx]⟩
    | none =>
      simp only [hs] at h
      cases h' : Vars.overwrite r k v with
      | none => simp [h'] at h
      | some r' =>
        simp only [h', Option.some.injEq] at h
        subst h
        have := ih h'
        refine ⟨?_, fun x hx => ?_⟩
        · simp only [slots, List.map_cons, hs, Slots.update]
          exact congrArg _ this.1
        · simp only [slots, List.map_cons]
          exact congrArg _ (this.2 x hx)

theorem insert_slots {vs vs' : Vars T} {k : Str} {v : T} (h : vs.insert k v = .ok vs') :
    slots vs' k = (slots vs k).write v ∧ ∀ x, x ≠ k → slots vs' x = slots vs x := by
  unfold Vars.insert at h
  cases ho : vs.overwrite k v with
  | some w =>
    simp only [ho, Except.ok.injEq] at h
    subst h
    have hb : (slots vs k).bound = true := by
      cases hb : (slots vs k).bound with
      | true => rfl
      | false => rw [overwrite_none.mpr hb] at ho; simp at ho
    have := overwrite_slots ho
    exact ⟨by simp [Slots.write, hb, this.1], this.2⟩
  | none =>
    simp only [ho] at h
    cases vs with
    | nil => simp at h
    | cons s r =>
      simp only [Except.ok.injEq] at h
      subst h
      have hb := overwrite_none.mp ho
      refine ⟨?_, fun x hx => by simp [slots, set_other _ _ hx]⟩
      simp only [Slots.write, hb]
      simp [slots, set_same]

theorem insert_ok (vs : Vars T) (k : Str) (v : T) (h : vs ≠ []) : ∃ vs', vs.insert k v = .ok vs' := by
  unfold Vars.insert
  split
  · exact ⟨_, rfl⟩
  · cases vs with
    | nil => simp at h
    | cons s r => exact ⟨_, rfl⟩

theorem slots_length (vs : Vars T) (x : Str) : (slots vs x).length = vs.length := by simp [slots]

theorem update_length (s : Slots T) (v : T) : (s.update v).length = s.length := by
  fun_induction Slots.update v s <;> simp_all

theorem write_length (s : Slots T) (v : T) (h : s ≠ []) : (s.write v).length = s.length := by
  unfold Slots.write
  split
  · exact update_length s v
  · cases s <;> simp at h ⊢

theorem insert_length {vs vs' : Vars T} {k : Str} {v : T} (h : vs.insert k v = .ok vs') :
    vs'.length = vs.length := by
  have hne : vs ≠ [] := by
    rintro rfl; simp [Vars.insert, Vars.overwrite] at h
  have := (insert_slots h).1
  have h2 := congrArg List.length this
  rw [slots_length, write_length _ _ (by simpa [slots] using hne), slots_length] at h2
  exact h2

theorem read_write (s : Slots T) (v : T) : (s.write v).read = some v := by
  unfold Slots.write
  split
  · rename_i h
    induction s with
    | nil => simp [Slots.bound] at h
    | cons a r ih =>
      cases a with
      | some w => simp [Slots.update, Slots.read]
      | none =>
        simp only [Slots.update, Slots.read]
        exact ih (by simpa [Slots.bound] using h)
  · simp [Slots.read]

theorem get_insert {vs vs' : Vars T} {k : Str} {v : T} (h : vs.insert k v = .ok vs') :
    vs'.get k = some v ∧ ∀ x, x ≠ k → vs'.get x = vs.get x := by
  have := insert_slots h
  refine ⟨?_, fun x hx => ?_⟩
  · rw [get_eq_read, this.1, read_write]
  · rw [get_eq_read, get_eq_read, this.2 x hx]

/-- `modify` is `get` followed by an update of the innermost binding -/
theorem modify_spec {f : T → Except Fail T} {vs : Vars T} {k : Str} :
    (vs.get k = none ∧ vs.modify f k = none) ∨
    (∃ v e, vs.get k = some v ∧ f v = .error e ∧ vs.modify f k = some (.error e)) ∨
    (∃ v v' vs', vs.get k = some v ∧ f v = .ok v' ∧ vs.modify f k = some (.ok vs') ∧
      slots vs' k = (slots vs k).update v' ∧ (∀ x, x ≠ k → slots vs' x = slots vs x)) := by
  induction vs with
  | nil => left; simp [Vars.get, Vars.modify]
  | cons s r ih =>
    simp only [Vars.get, Vars.modify]
    cases hs : s k with
    | some v =>
      simp only [reduceCtorEq, false_and, false_or, Option.some.injEq]
      cases hf : f v with
      | error e => left; exact ⟨v, e, rfl, hf, rfl⟩
      | ok v' =>
        right
        refine ⟨v, v', _, rfl, hf, rfl, ?_, ?_⟩
        · simp [slots, set_same, hs, Slots.update]
        · intro x hx; simp [slots, set_other _ _ hx]
    | none =>
      simp only
      rcases ih with ⟨h1, h2⟩ | ⟨v, e, h1, h2, h3⟩ | ⟨v, v', vs', h1, h2, h3, h4, h5⟩
      · left; exact ⟨h1, by simp [h2]⟩
      · right; left; exact ⟨v, e, h1, h2, by simp [h3]⟩
      · right; right
        refine ⟨v, v', s :: vs', h1, h2, by simp [h3], ?_, ?_⟩
        · simp only [slots, List.map_cons, hs, Slots.update]
          exact congrArg _ h4
        · intro x hx
          simp only [slots, List.map_cons]
          exact congrArg _ (h5 x hx)

theorem bound_of_read {s : Slots T} {v : T} (h : s.read = some v) : s.bound = true := by
  induction s with
  | nil => simp [Slots.read] at h
  | cons a r ih =>
    cases a with
    | some w => simp [Slots.bound]
    | none => simp only [Slots.read] at h; have := ih h; simpa [Slots.bound] using this

theorem read_update {s : Slots T} {w v : T} (h : s.read = some w) : (s.update v).read = some v := by
  have := read_write s v
  rwa [Slots.write, if_pos (bound_of_read h)] at this

/-! relations on the defined variables -/

theorem Spec.SameDefined.refl (vs : Vars T) : SameDefined vs vs := by
  induction vs with
  | nil => trivial
  | cons s r ih => exact ⟨fun _ => Iff.rfl, ih⟩

theorem Spec.SameDefined.trans {a b c : Vars T} (h : SameDefined a b) (h' : SameDefined b c) :
    SameDefined a c := by
  induction a generalizing b c with
  | nil => cases b <;> cases c <;> simp_all [SameDefined]
  | cons s r ih =>
    cases b with
    | nil => simp [SameDefined] at h
    | cons s' r' =>
      cases c with
      | nil => simp [SameDefined] at h'
      | cons s'' r'' => exact ⟨fun x => (h.1 x).trans (h'.1 x), ih h.2 h'.2⟩

theorem Spec.SameDefined.length {a b : Vars T} (h : SameDefined a b) : a.length = b.length := by
  induction a generalizing b with
  | nil => cases b <;> simp_all [SameDefined]
  | cons s r ih =>
    cases b with
    | nil => simp [SameDefined] at h
    | cons s' r' => simp [ih h.2]

theorem Spec.SameDefined.get {a b : Vars T} (h : SameDefined a b) (x : Str) : a.get x = none ↔ b.get x = none := by
  induction a generalizing b with
  | nil => cases b <;> simp_all [SameDefined]
  | cons s r ih =>
    cases b with
    | nil => simp [SameDefined] at h
    | cons s' r' =>
      simp only [Vars.get]
      have h1 := h.1 x
      have h2 := ih h.2
      cases hs : s x with
      | some v =>
        cases hs' : s' x with
        | some v' => simp
        | none => simp [hs, hs'] at h1
      | none =>
        rw [hs] at h1
        rw [h1.mp rfl]
        simpa using h2

theorem Spec.Gained.refl (vs : Vars T) : Gained vs vs := by
  cases vs with
  | nil => trivial
  | cons s r => exact ⟨fun _ h => h, SameDefined.refl r⟩

theorem Spec.Gained.trans {a b c : Vars T} (h : Gained a b) (h' : Gained b c) : Gained a c := by
  cases a with
  | nil => cases b <;> cases c <;> simp_all [Gained]
  | cons s r =>
    cases b with
    | nil => simp [Gained] at h
    | cons s' r' =>
      cases c with
      | nil => simp [Gained] at h'
      | cons s'' r'' => exact ⟨fun x hx => h.1 x (h'.1 x hx), h.2.trans h'.2⟩

theorem Spec.SameDefined.gained {a b : Vars T} (h : SameDefined a b) : Gained a b := by
  cases a with
  | nil => cases b <;> simp_all [SameDefined, Gained]
  | cons s r =>
    cases b with
    | nil => simp [SameDefined] at h
    | cons s' r' => exact ⟨fun x => (h.1 x).mpr, h.2⟩

theorem sameDefined_of_slots {a b : Vars T} (hl : a.length = b.length)
    (h : ∀ x, (slots a x).map Option.isSome = (slots b x).map Option.isSome) : SameDefined a b := by
  induction a generalizing b with
  | nil => cases b <;> simp_all [SameDefined]
  | cons s r ih =>
    cases b with
    | nil => simp at hl
    | cons s' r' =>
      have h' : ∀ x, (s x).isSome = (s' x).isSome ∧
          (slots r x).map Option.isSome = (slots r' x).map Option.isSome := by
        intro x; simpa [slots] using h x
      refine ⟨fun x => ?_, ih (by simpa using hl) (fun x => (h' x).2)⟩
      have := (h' x).1
      cases hs : s x <;> cases hs' : s' x <;> simp_all

theorem update_isSome (s : Slots T) (v : T) : (s.update v).map Option.isSome = s.map Option.isSome := by
  fun_induction Slots.update v s <;> simp_all

theorem insert_gained {vs vs' : Vars T} {k : Str} {v : T} (h : vs.insert k v = .ok vs') :
    Gained vs vs' := by
  have hs := insert_slots h
  have hl := insert_length h
  by_cases hb : (slots vs k).bound = true
  · apply SameDefined.gained
    apply sameDefined_of_slots hl.symm
    intro x
    by_cases hx : x = k
    · subst hx
      rw [hs.1, Slots.write, if_pos hb, update_isSome]
    · rw [hs.2 x hx]
  · unfold Vars.insert at h
    rw [overwrite_none.mpr (by simpa using hb)] at h
    cases vs with
    | nil => simp at h
    | cons s r =>
      simp only [Except.ok.injEq] at h
      subst h
      refine ⟨fun x hx => ?_, SameDefined.refl r⟩
      by_cases hk : x = k
      · subst hk; simp [set_same] at hx
      · rwa [set_other _ _ hk] at hx

theorem modify_sameDefined {vs vs' : Vars T} {k : Str} {f : T → Except Fail T}
    (h : vs.modify f k = some (.ok vs')) : SameDefined vs vs' := by
  rcases @modify_spec T f vs k with ⟨_, h2⟩ | ⟨v, e, _, _, h3⟩ | ⟨v, v', w, h1, h2, h3, h4, h5⟩
  · simp [h2] at h
  · simp [h3] at h
  · rw [h3] at h
    injection h with h; injection h with h
    subst h
    apply sameDefined_of_slots
    · have := congrArg List.length h4
      rw [slots_length, update_length, slots_length] at this
      exact this.symm
    · intro x
      by_cases hx : x = k
      · subst hx; rw [h4, update_isSome]
      · rw [h5 x hx]

end

/-! assignment -/

theorem at?_append (v : Value) (p q : List Step) : at? v (p ++ q) = (at? v p).bind fun w => at? w q := by
  induction p generalizing v with
  | nil => simp [at?]
  | cons s p ih =>
    simp only [List.cons_append, at?]
    cases child v s with
    | none => rfl
    | some w => simpa using ih w

theorem at?_single (v : Value) (s : Step) : at? v [s] = child v s := by
  simp only [at?]; cases child v s <;> rfl

/-- `find?` of a field by name -/
def findField (fs : List (Str × Value)) (name : Str) : Option Value :=
  (fs.find? fun p => p.1 == name).map (·.2)

theorem fieldLookup_eq (fs : List (Str × Value)) (name : Str) : fieldLookup fs name = findField fs name := by
  induction fs with
  | nil => rfl
  | cons p fs ih =>
    obtain ⟨n, v⟩ := p
    simp only [fieldLookup, findField, List.find?_cons] at ih ⊢
    by_cases h : n = name
    · simp [h]
    · have : (n == name) = false := by simpa using h
      simp [h, this, ih]

theorem modifyField_spec {what : Str} (f : Value → R Value) (name : Str) : ∀ (fs fs' : List (Str × Value)),
    modifyField what f fs name = .ok fs' →
    ∃ u u', findField fs name = some u ∧ f u = .ok u' ∧ findField fs' name = some u' ∧
      (∀ m, m ≠ name → findField fs' m = findField fs m) ∧ fs'.map (·.1) = fs.map (·.1) := by
  intro fs
  induction fs with
  | nil => intro fs' h; simp [modifyField] at h
  | cons p fs ih =>
    intro fs' h
    obtain ⟨n, v⟩ := p
    simp only [modifyField] at h
    by_cases hn : n = name
    · subst hn
      simp only [if_true, bind, Except.bind] at h
      cases hf : f v with
      | error e => simp [hf] at h
      | ok v' =>
        simp only [hf, Except.ok.injEq] at h
        subst h
        refine ⟨v, v', by simp [findField], hf, by simp [findField], ?_, by simp⟩
        intro m hm
        have : (n == m) = false := by simpa using Ne.symm hm
        simp [findField, this]
    · simp only [hn, if_false, bind, Except.bind] at h
      cases hf : modifyField what f fs name with
      | error e => simp [hf] at h
      | ok fs'' =>
        simp only [hf, Except.ok.injEq] at h
        subst h
        obtain ⟨u, u', h1, h2, h3, h4, h5⟩ := ih fs'' hf
        have hb : (n == name) = false := by simpa using hn
        refine ⟨u, u', ?_, h2, ?_, ?_, by simp [h5]⟩
        · simpa [findField, hb] using h1
        · simpa [findField, hb] using h3
        · intro m hm
          have := h4 m hm
          simp only [findField, List.find?_cons] at this ⊢
          cases (n == m) <;> simp [this]

theorem modifyNth_spec {er : Err} (f : Value → R Value) : ∀ (l : List Value) (n : Nat) (l' : List Value),
    modifyNth er f l n = .ok l' →
    ∃ u u', l[n]? = some u ∧ f u = .ok u' ∧ l'[n]? = some u' ∧ (∀ m, m ≠ n → l'[m]? = l[m]?) ∧
      l'.length = l.length := by
  intro l
  induction l with
  | nil => intro n l' h; simp [modifyNth] at h
  | cons v vs ih =>
    intro n l' h
    cases n with
    | zero =>
      simp only [modifyNth, bind, Except.bind] at h
      cases hf : f v with
      | error e => simp [hf] at h
      | ok v' =>
        simp only [hf, Except.ok.injEq] at h
        subst h
        refine ⟨v, v', by simp, hf, by simp, ?_, by simp⟩
        intro m hm
        cases m with
        | zero => simp at hm
        | succ m => simp
    | succ n =>
      simp only [modifyNth, bind, Except.bind] at h
      cases hf : modifyNth er f vs n with
      | error e => simp [hf] at h
      | ok vs' =>
        simp only [hf, Except.ok.injEq] at h
        subst h
        obtain ⟨u, u', h1, h2, h3, h4, h5⟩ := ih n vs' hf
        refine ⟨u, u', by simpa using h1, h2, by simpa using h3, ?_, by simp [h5]⟩
        intro m hm
        cases m with
        | zero => simp
        | succ m => simpa using h4 m (by omega)

/-- adding a step to a path that parts ways only there -/
theorem apart_snoc {p q : List Step} {s : Step} (h : Apart (p ++ [s]) q) :
    Apart p q ∨ ∃ t r, q = p ++ t :: r ∧ t ≠ s := by
  by_cases h1 : p <+: q
  · obtain ⟨r, rfl⟩ := h1
    right
    cases r with
    | nil => exact absurd (List.prefix_append p [s]) (by simpa using h.2)
    | cons t r =>
      refine ⟨t, r, rfl, ?_⟩
      rintro rfl
      exact h.1 ⟨r, by simp⟩
  · left
    exact ⟨h1, fun h2 => h.2 (h2.trans (List.prefix_append p [s]))⟩

/-- what a successful write through an assignment target did -/
structure Wrote (cfg : Cfg) (st : State) (e : Expr) (f : Value → R Value) (vs : Vars Value) (x : Str)
    (p : List Step) (old new : Value) : Prop where
  denotes : Denotes cfg st e x p
  root : root e = some x
  before : st.vars.get x = some old
  slots : slots vs x = (slots st.vars x).update new
  others : ∀ y, y ≠ x → Btrd.slots vs y = Btrd.slots st.vars y
  defined : SameDefined st.vars vs
  here : ∃ w w', at? old p = some w ∧ f w = .ok w' ∧ at? new p = some w'
  apart : ∀ q, Apart p q → at? new q = at? old q

theorem modifyLhs_wrote (cfg : Cfg) (st : State) : ∀ (e : Expr) (f : Value → R Value) (vs : Vars Value),
    modifyLhs cfg st e f = .ok vs → ∃ x p old new, Wrote cfg st e f vs x p old new
  | .ident x, f, vs, h => by
    simp only [modifyLhs] at h
    rcases @modify_spec _ f st.vars x with ⟨_, h2⟩ | ⟨v, e, _, _, h3⟩ | ⟨v, v', w, h1, h2, h3, h4, h5⟩
    · simp [h2] at h
    · simp [h3] at h
    · simp only [h3, Except.ok.injEq] at h
      subst h
      refine ⟨x, [], v, v', ⟨.ident x, rfl, h1, h4, h5, modify_sameDefined h3, ⟨v, v', rfl, h2, rfl⟩, ?_⟩⟩
      intro q hq
      exact absurd List.nil_prefix hq.1
  | .field e fld, f, vs, h => by
    simp only [modifyLhs] at h
    split at h
    · rename_i name
      obtain ⟨x, p, old, new, hw⟩ := modifyLhs_wrote cfg st e _ _ h
      obtain ⟨w, w', h1, h2, h3⟩ := hw.here
      cases w with
      | struct n k fs =>
        simp only [bind, Except.bind] at h2
        cases hm : modifyField n f fs name with
        | error e => simp [hm] at h2
        | ok fs' =>
          simp only [hm, Except.ok.injEq] at h2
          subst h2
          obtain ⟨u, u', g1, g2, g3, g4, _⟩ := modifyField_spec f name fs fs' hm
          refine ⟨x, p ++ [.field name], old, new, ⟨.field name hw.denotes, hw.root, hw.before, hw.slots,
            hw.others, hw.defined, ⟨u, u', ?_, g2, ?_⟩, ?_⟩⟩
          · rw [at?_append, h1, Option.bind_some, at?_single]; exact g1
          · rw [at?_append, h3, Option.bind_some, at?_single]; exact g3
          · intro q hq
            rcases apart_snoc hq with hq | ⟨t, r, rfl, ht⟩
            · exact hw.apart q hq
            · rw [at?_append, at?_append, h1, h3, Option.bind_some, Option.bind_some]
              simp only [at?]
              congr 1
              cases t with
              | index i => rfl
              | field m =>
                exact g4 m (by rintro rfl; exact ht rfl)
      | _ => simp at h2
    · simp at h
  | .index e i, f, vs, h => by
    simp only [modifyLhs, bind, Except.bind] at h
    cases hi : evalExpr cfg st i with
    | error e => simp [hi] at h
    | ok iv =>
      simp only [hi] at h
      cases iv with
      | int idx =>
        simp only [Value.asInteger] at h
        obtain ⟨x, p, old, new, hw⟩ := modifyLhs_wrote cfg st e _ _ h
        obtain ⟨w, w', h1, h2, h3⟩ := hw.here
        cases w with
        | array vec k =>
          simp only at h2
          by_cases hr : 0 ≤ idx ∧ idx < 2 ^ 64
          · have ht : tryUnsigned 64 idx = .ok idx.toNat := by
              exact tryUnsigned_ok hr.1 hr.2
            simp only [ht] at h2
            cases hm : modifyNth (.indexRange idx vec.length) f vec idx.toNat with
            | error e => simp [hm] at h2
            | ok vec' =>
              simp only [hm, Except.ok.injEq] at h2
              subst h2
              obtain ⟨u, u', g1, g2, g3, g4, _⟩ := modifyNth_spec f vec idx.toNat vec' hm
              have hidx : evalExpr cfg st i = .ok (.int (idx.toNat : Nat)) := by
                rw [hi, Int.toNat_of_nonneg hr.1]
              have hlt : idx.toNat < 2 ^ 64 := by
                have := hr.2; omega
              refine ⟨x, p ++ [.index idx.toNat], old, new, ⟨.index hw.denotes hidx hlt, hw.root, hw.before,
                hw.slots, hw.others, hw.defined, ⟨u, u', ?_, g2, ?_⟩, ?_⟩⟩
              · rw [at?_append, h1, Option.bind_some, at?_single]; exact g1
              · rw [at?_append, h3, Option.bind_some, at?_single]; exact g3
              · intro q hq
                rcases apart_snoc hq with hq | ⟨t, r, rfl, ht'⟩
                · exact hw.apart q hq
                · rw [at?_append, at?_append, h1, h3, Option.bind_some, Option.bind_some]
                  simp only [at?]
                  congr 1
                  cases t with
                  | field m => rfl
                  | index m => exact g4 m (by rintro rfl; exact ht' rfl)
          · have ht : tryUnsigned 64 idx = .error (.err .conversion) := by
              exact tryUnsigned_err hr
            simp [ht] at h2
        | _ => simp at h2
      | _ => simp [Value.asInteger] at h
  | .int _, f, vs, h => by simp [modifyLhs] at h
  | .bool _, f, vs, h => by simp [modifyLhs] at h
  | .str _, f, vs, h => by simp [modifyLhs] at h
  | .paren _, f, vs, h => by simp [modifyLhs] at h
  | .call _ _, f, vs, h => by simp [modifyLhs] at h
  | .bin _ _ _, f, vs, h => by simp [modifyLhs] at h
  | .un _ _, f, vs, h => by simp [modifyLhs] at h
  | .cast _ _, f, vs, h => by simp [modifyLhs] at h

/-- assignment to anything but a plain variable -/
theorem evalAssign_path (cfg : Cfg) (st : State) (l r : Expr) (hl : ∀ x, l ≠ .ident x) (v : Value)
    (hr : evalExpr cfg st r = .ok v) : evalAssign cfg st l r =
      match modifyLhs cfg st l (fun _ => .ok v) with
      | .ok vs => ({ st with vars := vs }, .ok)
      | .error e => (st, .fail e) := by
  unfold evalAssign
  rw [hr]
  cases l <;> first | rfl | (exact absurd rfl (hl _))

theorem gained_closed (cfg : Cfg) : RelClosed cfg (fun _ => True) (fun _ => True) Gained where
  refl := Gained.refl
  trans := Gained.trans
  scope vs vs' vs'' h hp := by
    cases vs' with
    | nil => simp [Vars.pop] at hp
    | cons s r =>
      simp only [Vars.pop, Except.ok.injEq] at hp
      subst hp
      exact h.2.gained
  scopeErr vs vs' e h hp := by
    cases vs' with
    | nil => exact absurd h (by simp [Vars.push, Gained])
    | cons s r => simp [Vars.pop] at hp
  assign st l r _ := by
    unfold evalAssign
    split
    · exact Gained.refl _
    · split
      · split
        · rename_i h; exact insert_gained h
        · exact Gained.refl _
      · split
        · rename_i h
          obtain ⟨x, p, old, new, hw⟩ := modifyLhs_wrote _ _ _ _ _ h
          exact hw.defined.gained
        · exact Gained.refl _
  bind vs name v vs' _ h := insert_gained h

end Btrd
