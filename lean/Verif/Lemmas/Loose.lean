/-
Loosely spaced tokens, and the token of a loop variable.
-/
import Verif.Lemmas.RoundTripStmt

namespace Btrd
open P Spec

/-! ### loosely spaced tokens -/

theorem Spec.Loose.append {ts us : List Str} {x y : Str} (h : Loose ts x) (h2 : Loose us y) : Loose (ts ++ us) (x ++ y) := by
  induction h with
  | nil w hw =>
    cases h2 with
    | nil w2 hw2 => exact .nil _ (blank_append hw hw2)
    | cons w2 t ts r hw2 hr =>
      rw [← List.append_assoc]
      exact .cons _ _ _ _ (blank_append hw hw2) hr
  | cons w t ts r hw _ ih =>
    rw [List.cons_append, List.append_assoc, List.append_assoc]
    exact .cons _ _ _ _ hw ih

theorem Spec.Loose.empty : Loose [] [] := .nil _ blank_nil

theorem Spec.Loose.tok (t : Str) : Loose [t] t := by
  have := Loose.cons [] t [] [] blank_nil .empty
  simpa using this

theorem Spec.Loose.blank {w : Str} (h : Blank w) : Loose [] w := .nil _ h

theorem Spec.Loose.pre {w : Str} {ts : List Str} {x : Str} (h : Blank w) (h2 : Loose ts x) : Loose ts (w ++ x) :=
  (Loose.blank h).append h2

theorem Spec.Loose.post {w : Str} {ts : List Str} {x : Str} (h2 : Loose ts x) (h : Blank w) : Loose ts (x ++ w) := by
  have := h2.append (Loose.blank h)
  rwa [List.append_nil] at this

theorem Spec.Spaced.loose {ts : List Str} {text : Str} (h : Spaced ts text) : Loose ts text := by
  induction h with
  | nil => exact .empty
  | one t => exact .tok t
  | cons t w t' ts rest hw _ _ ih =>
    rw [List.append_assoc]
    exact (Loose.tok t).append (.pre hw ih)

/-! ### the token of a loop variable -/

/-- tokens around a possibly empty body -/
theorem spaced_body {t t' : Str} {tt ts : List Str} {text : Str} (h : Spaced (t :: (tt ++ t' :: ts)) text) :
    ∃ w body w2 tail, text = t ++ (w ++ (body ++ (w2 ++ tail))) ∧ Blank w ∧ Blank w2 ∧ Spaced tt body ∧ Spaced (t' :: ts) tail := by
  cases tt with
  | nil =>
    obtain ⟨w, r, rfl, hw, -, hr⟩ := spaced_cons h
    exact ⟨w, [], [], r, by simp, hw, blank_nil, .nil, hr⟩
  | cons u tt =>
    obtain ⟨w, r, rfl, hw, -, hr⟩ := spaced_cons h
    obtain ⟨ta, w2, tb, rfl, hta, htb, hw2⟩ := spaced_append (a := u :: tt) (by simp) hr
    exact ⟨w, ta, w2, tb, rfl, hw, hw2, hta, htb⟩

mutual
/-- where words are kept apart, a blank follows every loop variable -/
theorem stmt_apart {u : List Str → Prop} : ∀ {s ts}, StmtFormV Bare u s ts → ∀ text, Spaced ts text → ∃ us, StmtFormV Parted u s us ∧ Loose us text
  | _, _, .assign l r ts us h1 h2 hu, text, hs => ⟨_, .assign l r ts us h1 h2 hu, hs.loose⟩
  | _, _, .plusEq l r ts us h1 h2 hu, text, hs => ⟨_, .plusEq l r ts us h1 h2 hu, hs.loose⟩
  | _, _, .minusEq l r ts us h1 h2 hu, text, hs => ⟨_, .minusEq l r ts us h1 h2 hu, hs.loose⟩
  | _, _, .ite c t ts tt h1 h2, text, hs => by
    have hs' : Spaced ((s!' "if" :: ts) ++ s!' "{" :: (tt ++ [s!' "}"])) text := hs
    obtain ⟨ta, w, tb, rfl, hta, htb, hw⟩ := spaced_append (by simp) hs'
    obtain ⟨w1, body, w2, tail, rfl, hw1, hw2, hbody, htail⟩ := spaced_body htb
    obtain ⟨us, h3, h4⟩ := prog_apart h2 body hbody
    refine ⟨_, .ite c t ts us h1 h3, ?_⟩
    exact hta.loose.append (.pre hw ((Loose.tok s!' "{").append (.pre hw1 (h4.append (.pre hw2 htail.loose)))))
  | _, _, .iteElse c t f ts tt ft h1 h2 h3, text, hs => by
    have hs' : Spaced ((s!' "if" :: ts) ++ s!' "{" :: (tt ++ s!' "}" :: s!' "else" :: s!' "{" :: (ft ++ [s!' "}"]))) text := hs
    obtain ⟨ta, w, tb, rfl, hta, htb, hw⟩ := spaced_append (by simp) hs'
    obtain ⟨w1, body, w2, tail, rfl, hw1, hw2, hbody, htail⟩ := spaced_body htb
    obtain ⟨w3, t3, rfl, hw3, -, ht3⟩ := spaced_cons htail
    obtain ⟨w4, t4, rfl, hw4, -, ht4⟩ := spaced_cons ht3
    obtain ⟨w5, fbody, w6, tail, rfl, hw5, hw6, hfbody, hftail⟩ := spaced_body ht4
    obtain ⟨us, h4, h5⟩ := prog_apart h2 body hbody
    obtain ⟨vs, h6, h7⟩ := prog_apart h3 fbody hfbody
    refine ⟨_, .iteElse c t f ts us vs h1 h4 h6, ?_⟩
    exact hta.loose.append (.pre hw ((Loose.tok s!' "{").append (.pre hw1 (h5.append (.pre hw2 ((Loose.tok s!' "}").append
      (.pre hw3 ((Loose.tok s!' "else").append (.pre hw4 ((Loose.tok s!' "{").append (.pre hw5 (h7.append (.pre hw6 hftail.loose)))))))))))))
  | _, _, .while c t ts tt h1 h2, text, hs => by
    have hs' : Spaced ((s!' "while" :: ts) ++ s!' "{" :: (tt ++ [s!' "}"])) text := hs
    obtain ⟨ta, w, tb, rfl, hta, htb, hw⟩ := spaced_append (by simp) hs'
    obtain ⟨w1, body, w2, tail, rfl, hw1, hw2, hbody, htail⟩ := spaced_body htb
    obtain ⟨us, h3, h4⟩ := prog_apart h2 body hbody
    refine ⟨_, .while c t ts us h1 h3, ?_⟩
    exact hta.loose.append (.pre hw ((Loose.tok s!' "{").append (.pre hw1 (h4.append (.pre hw2 htail.loose)))))
  | _, _, .for x t r b ts bt hx hv h1 h2, text, hs => by
    have hv : t = x := hv
    subst hv
    obtain ⟨w0, r0, rfl, hw0, -, hr0⟩ := spaced_cons hs
    obtain ⟨w1, r1, rfl, hw1, hg1, hr1⟩ := spaced_cons hr0
    have hr1' : Spaced ((s!' "in" :: ts) ++ s!' "{" :: (bt ++ [s!' "}"])) r1 := hr1
    obtain ⟨ta, w, tb, rfl, hta, htb, hw⟩ := spaced_append (by simp) hr1'
    obtain ⟨w3, body, w4, tail, rfl, hw3, hw4, hbody, htail⟩ := spaced_body htb
    obtain ⟨us, h3, h4⟩ := prog_apart h2 body hbody
    cases w1 with
    | nil => exact absurd (glue_names hx name_in) (hg1 rfl)
    | cons b0 w1 =>
      have hb0 : Blank [b0] := fun c hc => hw1 c (by simp at hc ⊢; exact .inl hc)
      have hw1 : Blank w1 := fun c hc => hw1 c (by simp [hc])
      refine ⟨_, .for t (t ++ [b0]) r b ts us hx ⟨b0, hb0, rfl⟩ h1 h3, ?_⟩
      have := (Loose.tok s!' "for").append (.pre hw0 ((Loose.tok (t ++ [b0])).append (.pre hw1
        (hta.loose.append (.pre hw ((Loose.tok s!' "{").append (.pre hw3 (h4.append (.pre hw4 htail.loose)))))))))
      simpa using this
  | _, _, .brk, text, hs => ⟨_, .brk, hs.loose⟩
  | _, _, .cont, text, hs => ⟨_, .cont, hs.loose⟩
  | _, _, .help, text, hs => ⟨_, .help, hs.loose⟩
  | _, _, .quit, text, hs => ⟨_, .quit, hs.loose⟩
  | _, _, .filesystem x t h, text, hs => ⟨_, .filesystem x t h, hs.loose⟩
  | _, _, .print e ts h, text, hs => ⟨_, .print e ts h, hs.loose⟩
  | _, _, .expr e ts h hu, text, hs => ⟨_, .expr e ts h hu, hs.loose⟩
  | _, _, .semi s ts h, text, hs => by
    obtain ⟨ta, w, tb, rfl, hta, htb, hw⟩ := spaced_append (stmtForm_ne h) hs
    obtain ⟨us, h1, h2⟩ := stmt_apart h ta hta
    exact ⟨_, .semi s us h1, h2.append (.pre hw htb.loose)⟩
theorem prog_apart {u : List Str → Prop} : ∀ {p ts}, ProgFormV Bare u p ts → ∀ text, Spaced ts text → ∃ us, ProgFormV Parted u p us ∧ Loose us text
  | _, _, .nil, text, hs => ⟨[], .nil, hs.loose⟩
  | _, _, .cons s ss a b h1 h2, text, hs => by
    have hsplit : ∃ ta w3 tb, text = ta ++ (w3 ++ tb) ∧ Spaced a ta ∧ Spaced b tb ∧ Blank w3 := by
      cases b with
      | nil =>
        rw [List.append_nil] at hs
        exact ⟨text, [], [], by simp, hs, .nil, blank_nil⟩
      | cons t' b =>
        obtain ⟨ta, w3, tb, h1, hta, htb, hw3⟩ := spaced_append (stmtForm_ne h1) hs
        exact ⟨ta, w3, tb, h1, hta, htb, hw3⟩
    obtain ⟨ta, w, tb, rfl, hta, htb, hw⟩ := hsplit
    obtain ⟨us, h3, h4⟩ := stmt_apart h1 ta hta
    obtain ⟨vs, h5, h6⟩ := prog_apart h2 tb htb
    exact ⟨_, .cons s ss us vs h3 h5, h4.append (.pre hw h6)⟩
end

/-! ### and back -/

theorem Spec.Loose.split : ∀ {a b : List Str} {s : Str}, Loose (a ++ b) s → ∃ x y, s = x ++ y ∧ Loose a x ∧ Loose b y := by
  intro a
  induction a with
  | nil => intro b s h; exact ⟨[], s, rfl, .empty, h⟩
  | cons t a ih =>
    intro b s h
    cases h with
    | cons w _ _ r hw hr =>
      obtain ⟨x, y, rfl, hx, hy⟩ := ih hr
      exact ⟨w ++ (t ++ x), y, by simp, .cons w t a x hw hx, hy⟩

theorem Spec.Loose.uncons {t : Str} {a : List Str} {s : Str} (h : Loose (t :: a) s) : ∃ w r, s = w ++ (t ++ r) ∧ Blank w ∧ Loose a r := by
  cases h with
  | cons w _ _ r hw hr => exact ⟨w, r, rfl, hw, hr⟩

mutual
/-- the loop variable is a token of its own -/
theorem stmt_bare {u : List Str → Prop} : ∀ {s ts}, StmtFormV Parted u s ts → ∀ text, Loose ts text → ∃ us, StmtFormV Bare u s us ∧ Loose us text
  | _, _, .assign l r ts us h1 h2 hu, text, hs => ⟨_, .assign l r ts us h1 h2 hu, hs⟩
  | _, _, .plusEq l r ts us h1 h2 hu, text, hs => ⟨_, .plusEq l r ts us h1 h2 hu, hs⟩
  | _, _, .minusEq l r ts us h1 h2 hu, text, hs => ⟨_, .minusEq l r ts us h1 h2 hu, hs⟩
  | _, _, .ite c t ts tt h1 h2, text, hs => by
    have hs' : Loose ((s!' "if" :: (ts ++ [s!' "{"])) ++ (tt ++ [s!' "}"])) text := by simpa using hs
    obtain ⟨x, y, rfl, hx, hy⟩ := hs'.split
    obtain ⟨y, z, rfl, hy, hz⟩ := hy.split
    obtain ⟨us, h3, h4⟩ := prog_bare h2 y hy
    refine ⟨_, .ite c t ts us h1 h3, ?_⟩
    simpa using hx.append (h4.append hz)
  | _, _, .iteElse c t f ts tt ft h1 h2 h3, text, hs => by
    have hs' : Loose ((s!' "if" :: (ts ++ [s!' "{"])) ++ (tt ++ ([s!' "}", s!' "else", s!' "{"] ++ (ft ++ [s!' "}"])))) text := by
      simpa using hs
    obtain ⟨x, y, rfl, hx, hy⟩ := hs'.split
    obtain ⟨y, z1, rfl, hy1, hz1⟩ := hy.split
    obtain ⟨z, u1, rfl, hz, hu1⟩ := hz1.split
    obtain ⟨u, v, rfl, hu, hv⟩ := hu1.split
    obtain ⟨us, h4, h5⟩ := prog_bare h2 y hy1
    obtain ⟨vs, h6, h7⟩ := prog_bare h3 u hu
    refine ⟨_, .iteElse c t f ts us vs h1 h4 h6, ?_⟩
    simpa using hx.append (h5.append (hz.append (h7.append hv)))
  | _, _, .while c t ts tt h1 h2, text, hs => by
    have hs' : Loose ((s!' "while" :: (ts ++ [s!' "{"])) ++ (tt ++ [s!' "}"])) text := by simpa using hs
    obtain ⟨x, y, rfl, hx, hy⟩ := hs'.split
    obtain ⟨y, z, rfl, hy, hz⟩ := hy.split
    obtain ⟨us, h3, h4⟩ := prog_bare h2 y hy
    refine ⟨_, .while c t ts us h1 h3, ?_⟩
    simpa using hx.append (h4.append hz)
  | _, _, .for x _ r b ts bt hx ⟨b0, hb0, e0⟩ h1 h2, text, hs => by
    subst e0
    obtain ⟨w, q, rfl, hw, hq⟩ := hs.uncons
    obtain ⟨w2, q2, rfl, hw2, hq2⟩ := hq.uncons
    have hq2' : Loose ((s!' "in" :: (ts ++ [s!' "{"])) ++ (bt ++ [s!' "}"])) q2 := by simpa using hq2
    obtain ⟨i, y, rfl, hi, hy⟩ := hq2'.split
    obtain ⟨y, z, rfl, hy, hz⟩ := hy.split
    obtain ⟨us, h3, h4⟩ := prog_bare h2 y hy
    refine ⟨_, .for x x r b ts us hx rfl h1 h3, ?_⟩
    have := Loose.pre hw ((Loose.tok s!' "for").append (.pre hw2 ((Loose.tok x).append (.pre hb0 (hi.append (h4.append hz))))))
    simpa using this
  | _, _, .brk, text, hs => ⟨_, .brk, hs⟩
  | _, _, .cont, text, hs => ⟨_, .cont, hs⟩
  | _, _, .help, text, hs => ⟨_, .help, hs⟩
  | _, _, .quit, text, hs => ⟨_, .quit, hs⟩
  | _, _, .filesystem x t h, text, hs => ⟨_, .filesystem x t h, hs⟩
  | _, _, .print e ts h, text, hs => ⟨_, .print e ts h, hs⟩
  | _, _, .expr e ts h hu, text, hs => ⟨_, .expr e ts h hu, hs⟩
  | _, _, .semi s ts h, text, hs => by
    obtain ⟨x, y, rfl, hx, hy⟩ := hs.split
    obtain ⟨us, h1, h2⟩ := stmt_bare h x hx
    exact ⟨_, .semi s us h1, h2.append hy⟩
theorem prog_bare {u : List Str → Prop} : ∀ {p ts}, ProgFormV Parted u p ts → ∀ text, Loose ts text → ∃ us, ProgFormV Bare u p us ∧ Loose us text
  | _, _, .nil, text, hs => ⟨[], .nil, hs⟩
  | _, _, .cons s ss a b h1 h2, text, hs => by
    obtain ⟨x, y, rfl, hx, hy⟩ := hs.split
    obtain ⟨us, h3, h4⟩ := stmt_bare h1 x hx
    obtain ⟨vs, h5, h6⟩ := prog_bare h2 y hy
    exact ⟨_, .cons s ss us vs h3 h5, h4.append h6⟩
end

/-! ### demands on statements that begin with an expression -/

mutual
theorem stmt_mono {v : Str → Str → Prop} {u u' : List Str → Prop} (hm : ∀ ts, u ts → u' ts) :
    ∀ {s ts}, StmtFormV v u s ts → StmtFormV v u' s ts
  | _, _, .assign l r ts us h1 h2 hu => .assign l r ts us h1 h2 (hm _ hu)
  | _, _, .plusEq l r ts us h1 h2 hu => .plusEq l r ts us h1 h2 (hm _ hu)
  | _, _, .minusEq l r ts us h1 h2 hu => .minusEq l r ts us h1 h2 (hm _ hu)
  | _, _, .ite c t ts tt h1 h2 => .ite c t ts tt h1 (prog_mono hm h2)
  | _, _, .iteElse c t f ts tt ft h1 h2 h3 => .iteElse c t f ts tt ft h1 (prog_mono hm h2) (prog_mono hm h3)
  | _, _, .while c b ts bt h1 h2 => .while c b ts bt h1 (prog_mono hm h2)
  | _, _, .for x t r b ts bt hx hv h1 h2 => .for x t r b ts bt hx hv h1 (prog_mono hm h2)
  | _, _, .brk => .brk
  | _, _, .cont => .cont
  | _, _, .help => .help
  | _, _, .quit => .quit
  | _, _, .filesystem s t h => .filesystem s t h
  | _, _, .print e ts h => .print e ts h
  | _, _, .expr e ts h hu => .expr e ts h (hm _ hu)
  | _, _, .semi s ts h => .semi s ts (stmt_mono hm h)
theorem prog_mono {v : Str → Str → Prop} {u u' : List Str → Prop} (hm : ∀ ts, u ts → u' ts) :
    ∀ {p ts}, ProgFormV v u p ts → ProgFormV v u' p ts
  | _, _, .nil => .nil
  | _, _, .cons s ss a b h1 h2 => .cons s ss a b (stmt_mono hm h1) (prog_mono hm h2)
end

theorem start_free {e : Expr} {ts us : List Str} (h : Written e ts) (hp : PlainStart e) : Free (ts ++ us) := by
  obtain ⟨t, vs, rfl, _⟩ := lead h.1
  exact plain_free (plain_head h.1 hp)

mutual
/-- plain programs are not taken for others -/
theorem stmt_free {v : Str → Str → Prop} {u : List Str → Prop} : ∀ {s ts}, StmtFormV v u s ts → PlainStmt s → StmtFormV v Free s ts
  | _, _, .assign l r ts us h1 h2 _, hp => .assign l r ts us h1 h2 (start_free h1 (by simpa only [PlainStmt] using hp))
  | _, _, .plusEq l r ts us h1 h2 _, hp => .plusEq l r ts us h1 h2 (start_free h1 (by simpa only [PlainStmt] using hp))
  | _, _, .minusEq l r ts us h1 h2 _, hp => .minusEq l r ts us h1 h2 (start_free h1 (by simpa only [PlainStmt] using hp))
  | _, _, .ite c t ts tt h1 h2, hp => by
    simp only [PlainStmt] at hp
    exact .ite c t ts tt h1 (prog_free h2 hp.1)
  | _, _, .iteElse c t f ts tt ft h1 h2 h3, hp => by
    simp only [PlainStmt] at hp
    exact .iteElse c t f ts tt ft h1 (prog_free h2 hp.1) (prog_free h3 hp.2)
  | _, _, .while c b ts bt h1 h2, hp => by
    simp only [PlainStmt] at hp
    exact .while c b ts bt h1 (prog_free h2 hp)
  | _, _, .for x t r b ts bt hx hv h1 h2, hp => by
    simp only [PlainStmt] at hp
    exact .for x t r b ts bt hx hv h1 (prog_free h2 hp)
  | _, _, .brk, _ => .brk
  | _, _, .cont, _ => .cont
  | _, _, .help, _ => .help
  | _, _, .quit, _ => .quit
  | _, _, .filesystem s t h, _ => .filesystem s t h
  | _, _, .print e ts h, _ => .print e ts h
  | _, _, .expr e ts h _, hp => .expr e ts h (start_free h (by simpa only [PlainStmt] using hp))
  | _, _, .semi s ts h, hp => .semi s ts (stmt_free h hp)
theorem prog_free {v : Str → Str → Prop} {u : List Str → Prop} : ∀ {p ts}, ProgFormV v u p ts → PlainProg p → ProgFormV v Free p ts
  | _, _, .nil, _ => .nil
  | _, _, .cons s ss a b h1 h2, hp => by
    simp only [PlainProg] at hp
    exact .cons s ss a b (stmt_free h1 hp.1) (prog_free h2 hp.2)
end

end Btrd
