/-
How often parsing looks at the text: statements and programs.
-/
import Verif.Lemmas.LooksPrim
import Verif.Lemmas.RoundTripStmt

namespace Btrd
open P Spec

/-- `else` and a brace are not read as a statement with a semicolon -/
theorem else_noSemi {w r : Str} (hw : Blank w) : stmtSemicolon (s!' "else" ++ (w ++ '{' :: r)) = none := by
  have hl : Ladder (.ident s!' "else") := by
    refine ⟨⟨'e', s!' "lse", rfl, by unfold Letter; decide, ?_⟩, by decide, by decide⟩
    intro d hd
    simp only [List.mem_cons, List.not_mem_nil, or_false] at hd
    rcases hd with rfl | rfl | rfl <;> unfold WordChar Letter <;> decide
  have hone : ExprText (.ident s!' "else") [s!' "else"] := .ident _ (by simp only [Ladder] at hl; exact hl.1)
  have h3 := (parses hone hl _ (.one _)).expr0 hone (.one _)
    (closed_char (c := '{') (r := r) hw (by decide) (by decide) (by decide))
  exact semicolon_none rfl rfl h3 ⟨w, '{', r, rfl, hw, by decide, by decide, by decide, by decide, by decide⟩

end Btrd

namespace Btrd.PC

variable {α β γ : Type}

/-! ### rules of bounded cost -/

/-- never more looks than this, on a text of at most `N` characters -/
structure Bd (N Y : Nat) (p : C α) : Prop where
  cost : ∀ {s}, s.length ≤ N → (p s).2 ≤ Y
  le : ∀ {s a s' n}, p s = (some (a, s'), n) → s'.length ≤ s.length

section
variable {N Y Z : Nat}

theorem Bd.mono {p : C α} (h : Bd N Y p) (hY : Y ≤ Z) : Bd N Z p where
  cost hs := Nat.le_trans (h.cost hs) hY
  le := h.le

theorem Bd.of_rough {k : Nat} {p : C α} (h : Rough k p) (hk : k * (N + 1) ≤ Y) : Bd N Y p where
  cost hs := h.bound hk hs
  le := h.le

theorem Bd.map {p : C α} (f : α → β) (h : Bd N Y p) : Bd N Y (map f p) where
  cost hs := by rw [map_cost]; exact h.cost hs
  le hp := by
    obtain ⟨a, s, m, m', h1, h2, rfl⟩ := andThen_some hp
    simp only [Prod.mk.injEq, Option.some.injEq] at h2
    obtain ⟨⟨-, rfl⟩, rfl⟩ := h2
    exact h.le h1

theorem Bd.seqR {p : C α} {q : C β} (h : Bd N Y p) (h' : Bd N Z q) : Bd N (Y + Z) (seqR p q) where
  cost {s} hs := by
    have h0 := h.cost hs
    rcases hp : p s with ⟨_ | ⟨a, s1⟩, m⟩
    · rw [hp] at h0
      simp only [PC.seqR, hp, Res.andThen] at h0 ⊢
      omega
    · rw [hp] at h0
      have h2 := h.le hp
      have h1 := h'.cost (s := s1) (by omega)
      simp only [PC.seqR, hp, Res.andThen] at h0 ⊢
      omega
  le hp := by
    obtain ⟨a, s, m, m', h1, h2, rfl⟩ := andThen_some hp
    have := h.le h1
    have := h'.le h2
    omega

theorem Bd.seq {p : C α} {q : C β} (h : Bd N Y p) (h' : Bd N Z q) : Bd N (Y + Z) (seq p q) where
  cost {s} hs := by
    have h0 := h.cost hs
    rcases hp : p s with ⟨_ | ⟨a, s1⟩, m⟩
    · rw [hp] at h0
      simp only [PC.seq, hp, Res.andThen] at h0 ⊢
      omega
    · rw [hp] at h0
      have h2 := h.le hp
      have h1 := h'.cost (s := s1) (by omega)
      rcases hq : q s1 with ⟨_ | ⟨b, s2⟩, m'⟩ <;> rw [hq] at h1 <;> simp only [PC.seq, hp, hq, Res.andThen] at h0 h1 ⊢ <;> omega
  le hp := by
    obtain ⟨a, s, m, m', h1, h2, rfl⟩ := andThen_some hp
    obtain ⟨as, s2, m2, m3, h3, h4, rfl⟩ := andThen_some h2
    simp only [Prod.mk.injEq, Option.some.injEq] at h4
    obtain ⟨⟨-, rfl⟩, rfl⟩ := h4
    have := h.le h1
    have := h'.le h3
    omega

theorem Bd.seqL {p : C α} {q : C β} (h : Bd N Y p) (h' : Bd N Z q) : Bd N (Y + Z) (seqL p q) where
  cost {s} hs := by
    have h0 := h.cost hs
    rcases hp : p s with ⟨_ | ⟨a, s1⟩, m⟩
    · rw [hp] at h0
      simp only [PC.seqL, hp, Res.andThen] at h0 ⊢
      omega
    · rw [hp] at h0
      have h2 := h.le hp
      have h1 := h'.cost (s := s1) (by omega)
      rcases hq : q s1 with ⟨_ | ⟨b, s2⟩, m'⟩ <;> rw [hq] at h1 <;> simp only [PC.seqL, hp, hq, Res.andThen] at h0 h1 ⊢ <;> omega
  le hp := by
    obtain ⟨a, s, m, m', h1, h2, rfl⟩ := andThen_some hp
    obtain ⟨as, s2, m2, m3, h3, h4, rfl⟩ := andThen_some h2
    simp only [Prod.mk.injEq, Option.some.injEq] at h4
    obtain ⟨⟨-, rfl⟩, rfl⟩ := h4
    have := h.le h1
    have := h'.le h3
    omega

theorem Bd.alt {p q : C α} (h : Bd N Y p) (h' : Bd N Z q) : Bd N (Y + Z) (alt p q) where
  cost hs := by
    have := h.cost hs
    have := h'.cost hs
    simp only [PC.alt, orElse_cost]
    split <;> omega
  le hp := by
    rcases orElse_some hp with h1 | ⟨m, m', h1, h2, rfl⟩
    · exact h.le h1
    · exact h'.le h2

end

section
variable {N U W : Nat}

/-- an expression -/
theorem bd_expr (hU : U = 100 * (N + 1)) (hW : W = 300 * U * (N + 1)) : Bd N W expr where
  cost {s} hs := by
    have h := lin_exprF (N := N) (U := U) (A := 300 * U) (by omega) rfl (s.length + 1)
    have hl := le_mul (300 * U) hs
    have hw : W = 300 * U * N + 300 * U := by rw [hW, Nat.mul_succ]
    rcases hp : exprF (s.length + 1) s with ⟨_ | ⟨a, s'⟩, n⟩
    · have := (h.fail hs hp).1
      simp only [expr, hp]; omega
    · obtain ⟨-, -, h3⟩ := h.succ hs hp
      simp only [expr, hp]
      rcases h3 with h3 | ⟨h3, -⟩ <;> omega
  le {s a s' n} hp := by
    have h := lin_exprF (N := s.length) (U := 100 * (s.length + 1)) (Nat.le_refl _) rfl (s.length + 1)
    exact Nat.le_of_lt (h.succ (Nat.le_refl _) hp).1

theorem expr_lt {s : Str} {a : Expr} {s' : Str} {n : Nat} (hp : expr s = (some (a, s'), n)) : s'.length < s.length :=
  ((lin_exprF (N := s.length) (U := 100 * (s.length + 1)) (Nat.le_refl _) rfl (s.length + 1)).succ (Nat.le_refl _) hp).1

/-- the statements that end with a semicolon -/
theorem bd_semicolon (hU : U = 100 * (N + 1)) (hW : W = 300 * U * (N + 1)) : Bd N (20 * W) stmtSemicolon := by
  have he := bd_expr hU hW
  have hUW : 300 * U ≤ W := by rw [hW, Nat.mul_succ]; omega
  have tg : ∀ t : Str, t.length ≤ 10 → Bd N U (tag t) := fun t ht =>
    .of_rough (.of_const (.tag t)) (by have := Nat.mul_le_mul_right (N + 1) ht; omega)
  have sy : ∀ c, Bd N U (sym c) := fun c => .of_rough (.of_const (.sym c)) (by omega)
  have sp : Bd N U space := .of_rough rough_space (by omega)
  have st : Bd N U string := .of_rough rough_string (by omega)
  refine .mono (.seqL (.seqL (.alt
    (.alt (.map _ (.seqR (.seqR (tg _ (by decide)) sp) st)) (.alt (.seqR (tg _ (by decide)) (.map _ he))
      (.alt (.map _ (tg _ (by decide))) (.map _ (tg _ (by decide))))))
    (.alt (.alt (.map _ (tg _ (by decide))) (.map _ (tg _ (by decide))))
      (.alt (.alt (.map _ (.seq (.seqL (.seqL he sp) (tg _ (by decide))) he))
          (.alt (.map _ (.seq (.seqL (.seqL he sp) (tg _ (by decide))) he))
            (.map _ (.seq (.seqL (.seqL he sp) (sy _)) he))))
        (.map _ he)))) sp) (sy _)) ?_
  omega

theorem semicolon_lt {s : Str} {a : Stmt} {s' : Str} {n : Nat} (hp : stmtSemicolon s = (some (a, s'), n)) : s'.length < s.length := by
  have h := Er.stmtSemicolon s
  rw [hp] at h
  obtain ⟨t, ht, rfl⟩ := stmtSemicolon_eats s a s' h.symm
  have : 0 < t.length := List.length_pos_iff.2 ht
  simp only [List.length_append]; omega

end

/-! ### blocks -/

/-- what follows is no closing brace -/
def Jam (s : Str) : Prop := ∀ r, skip s ≠ '}' :: r

/-- the bounds for the statements of a block -/
def Body (N X F : Nat) (sub : C β) : Prop := ∀ {s : Str}, s.length ≤ N → (∃ n, sub s = (none, n) ∧ n ≤ F) ∨
  ∃ as s' n, sub s = (some (as, s'), n) ∧ s'.length ≤ s.length ∧
    (n + X * s'.length ≤ X * s.length + F ∨ (n ≤ X * s.length + F ∧ Jam s'))

/-- one parser after another -/
structure Glue (hd : C α) (sub : C β) (q : C γ) : Prop where
  none : ∀ {s n}, hd s = (none, n) → q s = (none, n)
  some : ∀ {s a t n}, hd s = (some (a, t), n) → ∃ g : β → γ, q s = ((sub t).1.map (fun x => (g x.1, x.2)), n + (sub t).2)

theorem Glue.seq (hd : C α) (sub : C β) : Glue hd sub (seq hd sub) where
  none h := by simp only [PC.seq, h, Res.andThen]
  some {s a t n} h := by
    refine ⟨fun b => (a, b), ?_⟩
    simp only [PC.seq, h, Res.andThen]
    rcases sub t with ⟨_ | ⟨b, s'⟩, m⟩ <;> simp

theorem Glue.seqR (hd : C α) (sub : C β) : Glue hd sub (seqR hd sub) where
  none h := by simp only [PC.seqR, h, Res.andThen]
  some {s a t n} h := by
    refine ⟨fun b => b, ?_⟩
    simp only [PC.seqR, h, Res.andThen]
    rcases sub t with ⟨_ | ⟨b, s'⟩, m⟩ <;> simp

theorem block_cost {N U X Y F D : Nat} {hd : C α} {sub : C β} {q : C γ} (hb : Body N X F sub) (hg : Glue hd sub q)
    (hh : Bd N Y hd) (he : ∀ {s a s' n}, hd s = (some (a, s'), n) → s'.length < s.length) (hU : 100 * (N + 1) ≤ U)
    (hX : Y + F + U + D ≤ X) {s : Str} (hs : s.length ≤ N) :
    (∃ n, close '}' q s = (none, n) ∧ n ≤ Y ∧ (hd s).1 = none) ∨
    (∃ n a t, close '}' q s = (none, n) ∧ n + D ≤ X * s.length ∧ (hd s).1 = some (a, t)) ∨
    (∃ a s' n, close '}' q s = (some (a, s'), n) ∧ s'.length < s.length ∧ n + X * s'.length + D ≤ X * s.length ∧ (hd s).1.isSome) := by
  have hc := hh.cost hs
  rcases h1 : hd s with ⟨_ | ⟨a, t⟩, k⟩
  · rw [h1] at hc
    exact .inl ⟨k, close_none (hg.none h1), hc, rfl⟩
  · rw [h1] at hc
    simp only at hc
    have hl := he h1
    have hx := step_mul X hl
    obtain ⟨g, h2⟩ := hg.some h1
    rcases hb (s := t) (by omega) with ⟨m, h3, h4⟩ | ⟨as, t', m, h3, h4, h5⟩
    · rw [h3] at h2
      refine .inr (.inl ⟨k + m, a, t, close_none h2, by omega, rfl⟩)
    · rw [h3] at h2
      simp only [Option.map_some] at h2
      obtain ⟨m2, h6, h7⟩ := close_some (c := '}') h2 hU (by omega)
      have hx' := le_mul X h4
      rcases h7 with ⟨r, h8, h9, h10⟩ | ⟨-, h10⟩
      · have := le_mul X (Nat.le_of_lt h9)
        refine .inr (.inr ⟨_, r, _, h10, by omega, ?_, rfl⟩)
        rcases h5 with h5 | ⟨-, h5⟩
        · omega
        · exact absurd h8 (h5 r)
      · exact .inr (.inl ⟨_, a, t, h10, by rcases h5 with h5 | ⟨h5, -⟩ <;> omega, rfl⟩)

/-- the parts in front of the blocks -/
def hdIf : C Expr := seqL (seqL (seqR (tag s!' "if") expr) space) (sym '{')
def hdElse : C Char := seqR (seqR (seqR space (tag s!' "else")) space) (sym '{')
def hdWhile : C Expr := seqL (seqL (seqR (tag s!' "while") expr) space) (sym '{')
def hdFor : C (Expr × Expr) :=
  seqL (seqL (seq (seqL (seqL (seqR (seqR (tag s!' "for") space) ident) space) (tag s!' "in")) expr) space) (sym '{')

/-- an `else` and its brace, which were not taken -/
def Else (s : Str) : Prop := ∃ r t, skip s = s!' "else" ++ r ∧ skip r = '{' :: t

theorem hdElse_some {s : Str} {c : Char} {t : Str} (h : (hdElse s).1 = some (c, t)) : Else s ∧ t.length < s.length := by
  obtain ⟨k, h1, -⟩ := space_eq s
  have hl := skip_length s
  rcases h2 : tag s!' "else" (skip s) with ⟨_ | ⟨u, r⟩, m⟩
  · simp only [hdElse, seqR, h1, h2, Res.andThen, reduceCtorEq] at h
  · have h3 := (tag_cost s!' "else" (skip s)).2 u r (by rw [h2])
    obtain ⟨k', h4, -⟩ := space_eq r
    have hl' := skip_length r
    rcases sym_cases '{' (skip r) with ⟨v, h5, h6⟩ | ⟨-, h6⟩
    · simp only [hdElse, seqR, h1, h2, h4, h6, Res.andThen, Option.some.injEq, Prod.mk.injEq] at h
      obtain ⟨-, rfl⟩ := h
      refine ⟨⟨r, v, h3, h5⟩, ?_⟩
      have e1 : (skip s).length = r.length + 4 := by rw [h3, List.length_append]; simp; omega
      have e2 : (skip r).length = v.length + 1 := by rw [h5]; simp
      omega
    · simp only [hdElse, seqR, h1, h2, h4, h6, Res.andThen, reduceCtorEq] at h

section
variable {N U W : Nat}

theorem bd_hdIf (hU : U = 100 * (N + 1)) (hW : W = 300 * U * (N + 1)) : Bd N (3 * W) hdIf ∧ Bd N (3 * W) hdWhile ∧
    Bd N (3 * W) hdFor ∧ Bd N (3 * W) hdElse := by
  have he := bd_expr hU hW
  have hUW : 300 * U ≤ W := by rw [hW, Nat.mul_succ]; omega
  have tg : ∀ t : Str, t.length ≤ 10 → Bd N U (tag t) := fun t ht =>
    .of_rough (.of_const (.tag t)) (by have := Nat.mul_le_mul_right (N + 1) ht; omega)
  have sy : ∀ c, Bd N U (sym c) := fun c => .of_rough (.of_const (.sym c)) (by omega)
  have sp : Bd N U space := .of_rough rough_space (by omega)
  have id : Bd N U ident := .of_rough rough_ident (by omega)
  refine ⟨.mono (.seqL (.seqL (.seqR (tg _ (by decide)) he) sp) (sy _)) (by omega),
    .mono (.seqL (.seqL (.seqR (tg _ (by decide)) he) sp) (sy _)) (by omega),
    .mono (.seqL (.seqL (.seq (.seqL (.seqL (.seqR (.seqR (tg _ (by decide)) sp) id) sp) (tg _ (by decide))) he) sp) (sy _)) (by omega),
    .mono (.seqR (.seqR (.seqR sp (tg _ (by decide))) sp) (sy _)) (by omega)⟩

theorem heads_hd : Heads (· == 'i') hdIf ∧ Heads (· == 'w') hdWhile ∧ Heads (· == 'f') hdFor := by
  refine ⟨.seqL (.seqL (.seqR .tag ?_) rough_space.le) (Const.sym _).le, .seqL (.seqL (.seqR .tag ?_) rough_space.le) (Const.sym _).le,
    .seqL (.seqL (.seq (.seqL (.seqL (.seqR (.seqR .tag rough_space.le) rough_ident.le) rough_space.le) (Const.tag _).le) ?_) rough_space.le)
      (Const.sym _).le⟩ <;> exact fun {_ _ _ _} hp => Nat.le_of_lt (expr_lt hp)

theorem heads_lt {f : Char → Bool} {p : C α} (h : Heads f p) {s a s' n} (hp : p s = (some (a, s'), n)) : s'.length < s.length := by
  obtain ⟨c, r, rfl, -, h⟩ := h.hd hp
  simp only [List.length_cons]; omega

/-- the statements with blocks -/
theorem blockStmt_cost {X F D Y : Nat} {sub : C (List Stmt)} (hU : U = 100 * (N + 1)) (hW : W = 300 * U * (N + 1)) (hb : Body N X F sub)
    (hY : Y = 3 * W) (hX : Y + F + U + D ≤ X) {s : Str} (hs : s.length ≤ N) :
    (∃ n, blockStmt sub s = (none, n) ∧ n ≤ 3 * Y) ∨
    (∃ n c r, blockStmt sub s = (none, n) ∧ n + D ≤ X * s.length + 2 * Y ∧ s = c :: r ∧ (c = 'i' ∨ c = 'w' ∨ c = 'f')) ∨
    (∃ a s' n, blockStmt sub s = (some (a, s'), n) ∧ s'.length < s.length ∧ n + X * s'.length + D ≤ X * s.length + 2 * Y) ∨
    (∃ a s' n, blockStmt sub s = (some (a, s'), n) ∧ s'.length < s.length ∧ n + D ≤ X * s.length ∧ Else s') := by
  obtain ⟨b1, b2, b3, b4⟩ := bd_hdIf hU hW
  obtain ⟨k1, k2, k3⟩ := heads_hd
  rw [← hY] at b1 b2 b3 b4
  have c1 := @block_cost _ _ _ N U X Y F D _ _ _ hb (Glue.seq hdIf sub) b1 (fun h => heads_lt k1 h) (by omega) hX s hs
  have c2 := @block_cost _ _ _ N U X Y F D _ _ _ hb (Glue.seq hdWhile sub) b2 (fun h => heads_lt k2 h) (by omega) hX s hs
  have c3 := @block_cost _ _ _ N U X Y F D _ _ _ hb (Glue.seq hdFor sub) b3 (fun h => heads_lt k3 h) (by omega) hX s hs
  have e1 : ifElseStmt sub = map (fun p => Stmt.ite p.1.1 p.1.2 (p.2.getD [])) (seq (close '}' (seq hdIf sub)) (opt (close '}' (seqR hdElse sub)))) := rfl
  have e2 : whileStmt sub = map (fun p => Stmt.while p.1 p.2) (close '}' (seq hdWhile sub)) := rfl
  have e3 : forStmt sub = map (fun p => Stmt.for p.1.1 p.1.2 p.2) (close '}' (seq hdFor sub)) := rfl
  have hd : ∀ {α : Type} {c : Char} {p : C α}, Heads (· == c) p → (p s).1.isSome → ∃ r, s = c :: r := by
    intro α c p hp h
    obtain ⟨x, hx⟩ := Option.isSome_iff_exists.1 h
    obtain ⟨d, r, h1, h2, -⟩ := hp.hd (s := s) (a := x.1) (s' := x.2) (n := (p s).2) (Prod.ext hx rfl)
    exact ⟨r, by rw [h1, beq_iff_eq.1 h2]⟩
  have no2 : (∀ r, s ≠ 'w' :: r) → ∃ n, whileStmt sub s = (none, n) ∧ n ≤ Y := by
    intro h
    rcases c2 with ⟨n, h1, h2, -⟩ | ⟨n, a, t, -, -, h2⟩ | ⟨a, s', n, -, -, -, h2⟩
    · exact ⟨n, by rw [e2]; exact map_none h1, h2⟩
    · obtain ⟨r, hr⟩ := hd k2 (by rw [h2]; rfl)
      exact absurd hr (h r)
    · obtain ⟨r, hr⟩ := hd k2 h2
      exact absurd hr (h r)
  have no3 : (∀ r, s ≠ 'f' :: r) → ∃ n, forStmt sub s = (none, n) ∧ n ≤ Y := by
    intro h
    rcases c3 with ⟨n, h1, h2, -⟩ | ⟨n, a, t, -, -, h2⟩ | ⟨a, s', n, -, -, -, h2⟩
    · exact ⟨n, by rw [e3]; exact map_none h1, h2⟩
    · obtain ⟨r, hr⟩ := hd k3 (by rw [h2]; rfl)
      exact absurd hr (h r)
    · obtain ⟨r, hr⟩ := hd k3 h2
      exact absurd hr (h r)
  have rest : ∀ {n1}, ifElseStmt sub s = (none, n1) → blockStmt sub s =
      ((alt (whileStmt sub) (forStmt sub) s).1, n1 + (alt (whileStmt sub) (forStmt sub) s).2) := fun h => alt_none h
  rcases c1 with ⟨n1, h1, h2, -⟩ | ⟨n1, a, t, h1, h2, h3⟩ | ⟨a, s1, n1, h1, h2, h3, -⟩
  · have hi : ifElseStmt sub s = (none, n1) := by
      rw [e1]; exact map_none (by simp only [seq, h1, Res.andThen])
    rw [rest hi]
    rcases c2 with ⟨n2, g1, g2, -⟩ | ⟨n2, a, t, g1, g2, g3⟩ | ⟨a, s2, n2, g1, g2, g3, -⟩
    · have hw : whileStmt sub s = (none, n2) := by rw [e2]; exact map_none g1
      rw [alt_none hw]
      rcases c3 with ⟨n3, f1, f2, -⟩ | ⟨n3, a, t, f1, f2, f3⟩ | ⟨a, s3, n3, f1, f2, f3, -⟩
      · have hf : forStmt sub s = (none, n3) := by rw [e3]; exact map_none f1
        exact .inl ⟨n1 + (n2 + n3), by rw [hf], by omega⟩
      · have hf : forStmt sub s = (none, n3) := by rw [e3]; exact map_none f1
        obtain ⟨r, hr⟩ := hd k3 (by rw [f3]; rfl)
        exact .inr (.inl ⟨n1 + (n2 + n3), 'f', r, by rw [hf], by omega, hr, by simp⟩)
      · refine .inr (.inr (.inl ⟨.for a.1.1 a.1.2 a.2, s3, n1 + (n2 + n3), ?_, f2, by omega⟩))
        rw [e3, map_hit f1]
    · have hw : whileStmt sub s = (none, n2) := by rw [e2]; exact map_none g1
      obtain ⟨r, hr⟩ := hd k2 (by rw [g3]; rfl)
      obtain ⟨n3, f1, f2⟩ := no3 (by rw [hr]; simp)
      exact .inr (.inl ⟨n1 + (n2 + n3), 'w', r, by rw [alt_none hw, f1], by omega, hr, by simp⟩)
    · refine .inr (.inr (.inl ⟨.while a.1 a.2, s2, n1 + n2, ?_, g2, by omega⟩))
      rw [e2, alt_hit (map_hit g1)]
  · have hi : ifElseStmt sub s = (none, n1) := by
      rw [e1]; exact map_none (by simp only [seq, h1, Res.andThen])
    obtain ⟨r, hr⟩ := hd k1 (by rw [h3]; rfl)
    obtain ⟨n2, g1, g2⟩ := no2 (by rw [hr]; simp)
    obtain ⟨n3, f1, f2⟩ := no3 (by rw [hr]; simp)
    exact .inr (.inl ⟨n1 + (n2 + n3), 'i', r, by rw [rest hi, alt_none g1, f1], by omega, hr, by simp⟩)
  · have c4 := @block_cost _ _ _ N U X Y F D _ _ _ hb (Glue.seqR hdElse sub) b4
      (fun {s a s' n} h => (hdElse_some (s := s) (c := a) (t := s') (by rw [h])).2) (by omega) hX s1 (by omega)
    have done' : ∀ {o : Option (List Stmt)} {s' : Str} {m : Nat}, opt (close '}' (seqR hdElse sub)) s1 = (some (o, s'), m) →
        blockStmt sub s = (some (Stmt.ite a.1 a.2 (o.getD []), s'), n1 + m) := by
      intro o s' m h
      refine alt_hit ?_
      rw [e1]
      refine map_hit (a := (a, o)) ?_
      simp only [seq, h1, h, Res.andThen]; rfl
    rcases c4 with ⟨n4, g1, g2, -⟩ | ⟨n4, c, t, g1, g2, g3⟩ | ⟨f, s4, n4, g1, g2, g3, -⟩
    · refine .inr (.inr (.inl ⟨_, s1, n1 + n4, done' (o := none) (m := n4) ?_, h2, by omega⟩))
      simp only [opt, g1, Res.andThen, Res.orElse]; rfl
    · refine .inr (.inr (.inr ⟨_, s1, n1 + n4, done' (o := none) (m := n4) ?_, h2, by omega, (hdElse_some g3).1⟩))
      simp only [opt, g1, Res.andThen, Res.orElse]; rfl
    · refine .inr (.inr (.inl ⟨_, s4, n1 + n4, done' (o := some f) (m := n4) ?_, by omega, by omega⟩))
      simp only [opt, g1, Res.andThen, Res.orElse]; rfl

theorem skip_blank (s : Str) : ∃ w, s = w ++ skip s ∧ Spec.Blank w := by
  refine ⟨s.takeWhile isSpaceChar, (List.takeWhile_append_dropWhile).symm, ?_⟩
  intro c hc
  have := List.all_eq_true.1 (List.all_takeWhile (l := s) (p := isSpaceChar)) c hc
  simp only [isSpaceChar, Bool.or_eq_true, beq_iff_eq] at this
  rcases this with ((h | h) | h) | h <;> simp [h]

/-- nothing is read where an `else` was not taken -/
theorem else_dead {sub : C (List Stmt)} {s : Str} (h : Else s) :
    (stmtSemicolon (skip s)).1 = none ∧ (blockStmt sub (skip s)).1 = none ∧ ∃ r, skip s = 'e' :: r := by
  obtain ⟨r, t, h1, h2⟩ := h
  obtain ⟨w, h3, h4⟩ := skip_blank r
  refine ⟨?_, ?_, ⟨_, h1⟩⟩
  · rw [Er.stmtSemicolon, h1, h3, h2]
    exact else_noSemi h4
  · rw [h1]; rfl

/-- extra semicolons -/
theorem semis_item {X : Nat} (hU : 100 * (N + 1) ≤ U) (hX : U ≤ X) :
    Item N X U (fun _ => False) (fun _ => False) (seqR space (sym ';')) where
  fail {s n} hs hp := by
    have := (Rough.seqR rough_space (.of_const (.sym ';'))).bound (U := U) (by omega) hs
    rw [hp] at this
    exact .inl this
  succ {s a s' n} hs hp := by
    have hb := (Rough.seqR rough_space (.of_const (.sym ';'))).bound (U := U) (by omega) hs
    rw [hp] at hb
    obtain ⟨k, h1, -⟩ := space_eq s
    have hl := skip_length s
    obtain ⟨b, s1, m, m', h2, h3, rfl⟩ := andThen_some hp
    rw [h1] at h2
    simp only [Prod.mk.injEq, Option.some.injEq] at h2
    obtain ⟨⟨-, rfl⟩, rfl⟩ := h2
    have := Eats.sym ';' h3
    have hlt : s'.length < s.length := by omega
    have := step_mul X hlt
    simp only at hb
    exact ⟨hlt, .inl (by omega)⟩
  dead _ h := h.elim
  incl h := h

theorem semis_cost {X : Nat} (hU : 100 * (N + 1) ≤ U) (hX : U ≤ X) {s : Str} (hs : s.length ≤ N) :
    ∃ as s' n, many (seqR space (sym ';')) s = (some (as, s'), n) ∧ s'.length ≤ s.length ∧ n + X * s'.length ≤ X * s.length + U := by
  obtain ⟨as, s', n, h1, h2, h3 | ⟨-, h3⟩⟩ := many_cost (semis_item hU hX) s hs
  · exact ⟨as, s', n, h1, h2, h3⟩
  · exact h3.elim

/-- where there is no semicolon -/
theorem semis_none (hU : 100 * (N + 1) ≤ U) {s : Str} (hs : s.length ≤ N) (h : ∀ r, skip s ≠ ';' :: r) :
    ∃ n, many (seqR space (sym ';')) s = (some ([], s), n) ∧ n ≤ U := by
  obtain ⟨k, h1, h2⟩ := space_eq s
  rcases sym_cases ';' (skip s) with ⟨r, h3, -⟩ | ⟨-, h3⟩
  · exact absurd h3 (h r)
  · exact ⟨k + 1, many_dead (by simp only [seqR, h1, h3, Res.andThen]), by omega⟩

/-- a statement -/
theorem stmt_item {X F : Nat} {sub : C (List Stmt)} (hU : U = 100 * (N + 1)) (hW : W = 300 * U * (N + 1))
    (hF : F = 40 * W) (hX : X = 100 * W) (hb : Body N X F sub) : Item N X F Jam Else (stmt sub) := by
  have hUW : 300 * U ≤ W := by rw [hW, Nat.mul_succ]; omega
  have semi := bd_semicolon hU hW
  have block := fun {s : Str} (hs : s.length ≤ N) =>
    @blockStmt_cost N U W X F (40 * W) (3 * W) sub hU hW hb rfl (by omega) s hs
  clear hW
  have run : ∀ {s : Str}, s.length ≤ N → ∃ k, k ≤ U ∧ seqR space (alt stmtSemicolon (blockStmt sub)) s =
      ((alt stmtSemicolon (blockStmt sub) (skip s)).1, k + (alt stmtSemicolon (blockStmt sub) (skip s)).2) := by
    intro s hs
    obtain ⟨k, h1, h2⟩ := space_eq s
    exact ⟨k, by omega, by simp only [seqR, h1, Res.andThen]⟩
  have main : ∀ {s : Str}, s.length ≤ N →
      (∃ n, stmt sub s = (none, n) ∧ n ≤ F) ∨
      (∃ n, stmt sub s = (none, n) ∧ n ≤ X * s.length ∧ Jam s) ∨
      (∃ a s' n, stmt sub s = (some (a, s'), n) ∧ s'.length < s.length ∧ n + X * s'.length ≤ X * s.length) ∨
      (∃ a s' n, stmt sub s = (some (a, s'), n) ∧ s'.length < s.length ∧ n ≤ X * s.length ∧ Else s') := by
    intro s hs
    obtain ⟨k, hk, hrun⟩ := run hs
    have hl := skip_length s
    have hxl := le_mul X hl
    have failed : ∀ {n}, alt stmtSemicolon (blockStmt sub) (skip s) = (none, n) → stmt sub s = (none, k + n) := by
      intro n h
      rw [h] at hrun
      simp only [stmt, seqL, hrun, Res.andThen]
    have went : ∀ {a s1 n}, alt stmtSemicolon (blockStmt sub) (skip s) = (some (a, s1), n) → s1.length < s.length →
        ∃ s' n2, stmt sub s = (some (a, s'), k + n + n2) ∧ s'.length ≤ s1.length ∧ n2 + X * s'.length ≤ X * s1.length + U ∧
          ((∀ r, skip s1 ≠ ';' :: r) → s' = s1) := by
      intro a s1 n h hlt
      rw [h] at hrun
      obtain ⟨as, s', n2, h1, h2, h3⟩ := semis_cost (N := N) (U := U) (X := X) (by omega) (by omega) (s := s1) (by omega)
      refine ⟨s', n2, by simp only [stmt, seqL, hrun, h1, Res.andThen]; rfl, h2, h3, fun hn => ?_⟩
      obtain ⟨m, h4, -⟩ := semis_none (N := N) (U := U) (by omega) (s := s1) (by omega) hn
      rw [h1] at h4
      simp only [Prod.mk.injEq, Option.some.injEq] at h4
      exact h4.1.2
    have hc := semi.cost (s := skip s) (by omega)
    rcases h1 : stmtSemicolon (skip s) with ⟨_ | ⟨a, s1⟩, n1⟩
    · rw [h1] at hc
      simp only at hc
      rcases block (s := skip s) (by omega) with ⟨n2, g1, g2⟩ | ⟨n2, c, r, g1, g2, g3, g4⟩ | ⟨a, s2, n2, g1, g2, g3⟩ | ⟨a, s2, n2, g1, g2, g3, g4⟩
      · refine .inl ⟨k + (n1 + n2), failed ?_, by omega⟩
        rw [alt_none h1, g1]
      · refine .inr (.inl ⟨k + (n1 + n2), failed ?_, by omega, ?_⟩)
        · rw [alt_none h1, g1]
        · intro r' e
          rw [g3] at e
          simp only [List.cons.injEq] at e
          rcases g4 with h | h | h <;> rw [e.1] at h <;> exact absurd h (by decide)
      · obtain ⟨s', n3, f1, f2, f3, -⟩ := went (a := a) (s1 := s2) (n := n1 + n2) (by rw [alt_none h1, g1]) (by omega)
        exact .inr (.inr (.inl ⟨a, s', _, f1, by omega, by omega⟩))
      · obtain ⟨s', n3, f1, f2, f3, f4⟩ := went (a := a) (s1 := s2) (n := n1 + n2) (by rw [alt_none h1, g1]) (by omega)
        have : s' = s2 := f4 (by
          obtain ⟨-, -, r, hr⟩ := else_dead (sub := sub) g4
          intro r' e
          rw [hr] at e
          simp only [List.cons.injEq] at e
          exact absurd e.1 (by decide))
        subst this
        exact .inr (.inr (.inr ⟨a, s', _, f1, by omega, by omega, g4⟩))
    · rw [h1] at hc
      simp only at hc
      have hlt := semicolon_lt h1
      obtain ⟨s', n3, f1, f2, f3, -⟩ := went (a := a) (s1 := s1) (n := n1) (alt_hit h1) (by omega)
      have hlt' : s1.length < s.length := by omega
      have := step_mul X hlt'
      exact .inr (.inr (.inl ⟨a, s', _, f1, by omega, by omega⟩))
  refine ⟨fun {s n} hs hp => ?_, fun {s a s' n} hs hp => ?_, fun {s} hs h => ?_, fun {s} h => ?_⟩
  · rcases main hs with ⟨m, h1, h2⟩ | ⟨m, h1, h2, h3⟩ | ⟨a, s', m, h1, -⟩ | ⟨a, s', m, h1, -⟩ <;> rw [hp] at h1 <;>
      simp only [Prod.mk.injEq, true_and, reduceCtorEq, false_and] at h1
    · exact .inl (by omega)
    · exact .inr ⟨by omega, h3⟩
  · rcases main hs with ⟨m, h1, h2⟩ | ⟨m, h1, h2, h3⟩ | ⟨a, s', m, h1, h2, h3⟩ | ⟨a, s', m, h1, h2, h3, h4⟩ <;> rw [hp] at h1 <;>
      simp only [Prod.mk.injEq, true_and, reduceCtorEq, false_and, Option.some.injEq] at h1
    · obtain ⟨⟨rfl, rfl⟩, rfl⟩ := h1
      exact ⟨h2, .inl h3⟩
    · obtain ⟨⟨rfl, rfl⟩, rfl⟩ := h1
      exact ⟨h2, .inr ⟨h3, h4⟩⟩
  · obtain ⟨h1, h2, r, hr⟩ := else_dead (sub := sub) h
    obtain ⟨k, hk, hrun⟩ := run hs
    have hl := skip_length s
    have hc := semi.cost (s := skip s) (by omega)
    rcases g1 : stmtSemicolon (skip s) with ⟨_ | x, n1⟩
    · rw [g1] at hc
      simp only at hc
      rcases block (s := skip s) (by omega) with ⟨n2, g2, g3⟩ | ⟨n2, c, r', -, -, g3, g4⟩ | ⟨a, s2, n2, g2, -⟩ | ⟨a, s2, n2, g2, -⟩
      · refine ⟨k + (n1 + n2), ?_, by omega⟩
        rw [alt_none g1, g2] at hrun
        simp only [stmt, seqL, hrun, Res.andThen]
      · rw [hr] at g3
        simp only [List.cons.injEq] at g3
        rcases g4 with h | h | h <;> rw [← g3.1] at h <;> exact absurd h (by decide)
      · rw [g2] at h2; simp at h2
      · rw [g2] at h2; simp at h2
    · rw [g1] at h1; simp at h1
  · obtain ⟨-, -, r, hr⟩ := else_dead (sub := sub) h
    intro r' e
    rw [hr] at e
    simp only [List.cons.injEq] at e
    exact absurd e.1 (by decide)

/-- the statements of a program -/
theorem body_stmtsF {X F : Nat} (hU : U = 100 * (N + 1)) (hW : W = 300 * U * (N + 1)) (hF : F = 40 * W) (hX : X = 100 * W) :
    ∀ n, Body N X F (stmtsF n)
  | 0 => fun _ => .inl ⟨0, rfl, Nat.zero_le _⟩
  | n + 1 => by
    intro hs
    exact .inr (many_cost (stmt_item hU hW hF hX (body_stmtsF hU hW hF hX n)) _ hs)

/-- the whole text -/
theorem looks_le (s : Str) : looks s ≤ 5000000 * (s.length + 1) ^ 3 := by
  have hW : 30000 * ((s.length + 1) * (s.length + 1)) = 300 * (100 * (s.length + 1)) * (s.length + 1) := by
    rw [← Nat.mul_assoc, ← Nat.mul_assoc]
  have hb := body_stmtsF (N := s.length) (U := 100 * (s.length + 1)) rfl hW rfl rfl (s.length + 1) (s := s) (Nat.le_refl _)
  have hp : (s.length + 1) ^ 3 = ((s.length + 1) * (s.length + 1)) * s.length + (s.length + 1) * (s.length + 1) := by
    rw [Nat.pow_succ, Nat.pow_succ, Nat.pow_one, Nat.mul_succ]
  have hsq : (s.length + 1) * (s.length + 1) = (s.length + 1) * s.length + (s.length + 1) := Nat.mul_succ _ _
  rw [hp]
  generalize (s.length + 1) * (s.length + 1) = Q at *
  have ha : 100 * (30000 * Q) * s.length = 3000000 * (Q * s.length) := by rw [← Nat.mul_assoc, Nat.mul_assoc]
  rw [ha] at hb
  show (seqL (seqL stmts space) eof s).2 ≤ _
  rcases hb with ⟨n, h1, h2⟩ | ⟨as, s', n, h1, h2, h3⟩
  · have : stmts s = (none, n) := h1
    simp only [seqL, this, Res.andThen]; omega
  · have h4 : stmts s = (some (as, s'), n) := h1
    obtain ⟨k, h5, h6⟩ := space_eq s'
    have hn : n ≤ 3000000 * (Q * s.length) + 40 * (30000 * Q) := by rcases h3 with h3 | ⟨h3, -⟩ <;> omega
    rcases h7 : eof (skip s') with ⟨_ | ⟨u, t⟩, m⟩
    · have : m = 1 := by cases h8 : skip s' <;> rw [h8] at h7 <;> simp [eof] at h7; exact h7.symm
      simp only [seqL, h4, h5, h7, Res.andThen]; omega
    · have : m = 1 := by cases h8 : skip s' <;> rw [h8] at h7 <;> simp [eof] at h7; exact h7.2.symm
      simp only [seqL, h4, h5, h7, Res.andThen]; omega

end

end Btrd.PC
