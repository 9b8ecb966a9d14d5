import Verif.GoReadStmt
import Verif.Print
/-!
# The text of members is read back as the statements of `Verif/Gen`
-/
namespace Verif.Go.Read
open Verif Verif.Ast Verif.Go

/-! ## Files whose text can be read: names are identifiers, integers are not negative, lists are not empty -/

/-- Literals are not negative. -/
def IntOK : Integer → Prop
  | .literal v => 0 ≤ v
  | .constRef _ => True

/-- Lists of ranges are not empty. -/
def ListOK (l : IntegerList) : Prop := l.ranges ≠ [] ∧ ∀ r ∈ l.ranges, IntOK r.low ∧ ∀ h, r.high = some h → IntOK h

/-- References. -/
def RefOK (nm : String → String) (r : IDRef) : Prop := (r.scope = "" ∨ GoIdent r.scope) ∧ GoIdent (nm r.name)

/-- Lengths. -/
def LenOK (nm : String → String) : LengthConstraint → Prop
  | .leftover i => IntOK i
  | .idRef r => RefOK nm r

/-- Element types. -/
def BaseOK (nm : String → String) : Base → Prop
  | .int t => Syntax.GoodSize t.size ∧ ∀ l, t.constraint = some l → ListOK l
  | .char => True
  | .struct n => GoIdent (nm n)

/-- Types. -/
def TyOK (nm : String → String) : Ty → Prop
  | .base b => BaseOK nm b
  | .ptr => True
  | .nulterm => True
  | .fixedArray b k => BaseOK nm b ∧ IntOK k
  | .varArray b c => BaseOK nm b ∧ ∀ l, c = some l → LenOK nm l

/-- Fields. -/
def FieldOK (nm : String → String) (f : Field) : Prop := GoIdent (nm f.name) ∧ TyOK nm f.type

/-- Members of union cases. -/
def LeafOK (nm : String → String) : Leaf → Prop
  | .field f => FieldOK nm f
  | _ => True

/-- Unions. -/
def UnionOK (nm : String → String) (u : UnionMember) : Prop :=
  RefOK nm u.tag ∧ (∀ l, u.length = some l → LenOK nm l) ∧
    ∀ c ∈ u.cases, (∀ l, c.case = some l → ListOK l) ∧ ∀ l ∈ c.members, LeafOK nm l

/-- Members. -/
def MemberOK (nm : String → String) : Member → Prop
  | .leaf l => LeafOK nm l
  | .union u => UnionOK nm u

/-- Constants are not negative and the contexts of structs are identifiers. -/
def CfgOK (g : Gen.Cfg) : Prop :=
  (∀ n v, g.res.constant n = some v → 0 ≤ v) ∧ ∀ n s, g.res.struct n = some s → ∀ c ∈ s.contexts, GoIdent c

theorem bind_ok {α β : Type} {x : Res α} {f : α → Res β} {b : β} (h : (x >>= f) = .ok b) : ∃ a, x = .ok a ∧ f a = .ok b := by
  cases x with
  | ok a => exact ⟨a, rfl, h⟩
  | err m => cases h
  | panic m => cases h

theorem integer_ok {g : Gen.Cfg} {i : Integer} {k : Int} (hg : CfgOK g) (hi : IntOK i) (h : Gen.integer g i = .ok k) :
    ∃ n : Nat, k = n ∧ GenText.integer g i = .ok (GenText.itoa n) := by
  have hk : 0 ≤ k := by
    cases i with
    | literal v =>
      simp only [Gen.integer, Inspect.Resolver.integer, Res.ok.injEq] at h
      subst h; exact hi
    | constRef n =>
      simp only [Gen.integer, Inspect.Resolver.integer] at h
      cases hc : g.res.constant n with
      | none => simp [hc] at h
      | some v =>
        simp only [hc, Res.ok.injEq] at h
        subst h; exact hg.1 n v hc
  obtain ⟨n, rfl⟩ := Int.eq_ofNat_of_zero_le hk
  exact ⟨n, rfl, by simp [GenText.integer, h]⟩

open Verif.GenText (lit itoa)

/-! ## Conditions -/

/-- A clause followed by something that ends it. -/
def ClauseR (ts : List Tok) (e : Expr) : Prop :=
  ∃ g, exprOf g = some e ∧ ∀ p, (p = 1 ∨ p = 2) → ∀ m o rest, (o = Op.or ∨ o = Op.rparen ∨ o = Op.colon) →
    ∃ m', m ≤ m' ∧ pBin (m + 20) p (ts ++ .op o :: rest) = binLoop (m' + 1) p g (.op o :: rest)

theorem exprOf_lv (l : LV) : exprOf (lvG l) = some l.expr := by cases l <;> rfl

theorem clause_eq {l : LV} {k : Nat} : ClauseR (lvToks l ++ [.op .eq, .int k]) (.eq l.expr (.lit k)) := by
  refine ⟨.binary .eq (lvG l) (.int k), ?_, ?_⟩
  · simp only [exprOf, exprOf_lv]; rfl
  · rintro p (rfl | rfl) m o rest (rfl | rfl | rfl) <;> cases l <;> exact ⟨m + 17, by omega, rfl⟩

theorem clause_range {l : LV} {a b : Nat} :
    ClauseR (.op .lparen :: .int a :: .op .le :: (lvToks l ++ .op .and :: (lvToks l ++ [.op .le, .int b, .op .rparen])))
      (.and (.le (.lit a) l.expr) (.le l.expr (.lit b))) := by
  refine ⟨.binary .and (.binary .le (.int a) (lvG l)) (.binary .le (lvG l) (.int b)), ?_, ?_⟩
  · simp only [exprOf, exprOf_lv]; rfl
  · rintro p (rfl | rfl) m o rest (rfl | rfl | rfl) <;> cases l <;> exact ⟨m + 18, by omega, rfl⟩

/-- The clauses. -/
inductive Clauses : List (List Tok) → List Expr → Prop
  | nil : Clauses [] []
  | cons {c : List Tok} {e : Expr} {cs : List (List Tok)} {es : List Expr} : ClauseR c e → Clauses cs es → Clauses (c :: cs) (e :: es)

/-- Tokens of the clauses after the first. -/
def orToks : List (List Tok) → List Tok
  | [] => []
  | c :: cs => .op .or :: (c ++ orToks cs)

theorem orToks_head (cs : List (List Tok)) {o : Op} (rest : List Tok) (ho : o = .rparen ∨ o = .colon) :
    ∃ o' r, orToks cs ++ .op o :: rest = .op o' :: r ∧ (o' = .or ∨ o' = .rparen ∨ o' = .colon) := by
  cases cs with
  | nil => exact ⟨o, rest, rfl, .inr ho⟩
  | cons c cs => exact ⟨.or, _, rfl, .inl rfl⟩

theorem or_loop : ∀ {cs : List (List Tok)} {es : List Expr}, Clauses cs es → ∀ {o : Op} (_ : o = .rparen ∨ o = .colon) (m : Nat)
    (rest : List Tok) (x : GExpr) (e : Expr), exprOf x = some e →
    ∃ y, binLoop (m + cs.length + 22) 1 x (orToks cs ++ .op o :: rest) = some (y, .op o :: rest) ∧
      exprOf y = some (es.foldl .or e)
  | [], _, .nil, o, ho, m, rest, x, e, hx => by
    refine ⟨x, ?_, hx⟩
    rcases ho with rfl | rfl <;> rfl
  | c :: cs, _, .cons (e := e1) (es := es) h1 h2, o, ho, m, rest, x, e, hx => by
    obtain ⟨g, hg, hp⟩ := h1
    obtain ⟨o', r, hr, ho'⟩ := orToks_head cs rest ho
    obtain ⟨m', hm', hb⟩ := hp 2 (.inr rfl) (m + cs.length + 2) o' r ho'
    have hb' : binLoop (m' + 1) 2 g (.op o' :: r) = some (g, .op o' :: r) := by
      rcases ho' with rfl | rfl | rfl <;> rfl
    obtain ⟨y, hy, he⟩ := or_loop h2 ho m rest (.binary .or x g) (.or e e1) (by simp [exprOf, hx, hg, binOf])
    refine ⟨y, ?_, by simpa using he⟩
    have hb2 : pBin (m + cs.length + 22) 2 (c ++ (orToks cs ++ .op o :: rest)) = some (g, orToks cs ++ .op o :: rest) := by
      rw [hr, hb, hb', ← hr]
    have hn : m + (c :: cs).length + 22 = (m + cs.length + 22) + 1 := by simp; omega
    rw [hn]
    simp only [orToks, List.cons_append, List.append_assoc, binLoop, prec]
    rw [if_pos (by decide), hb2]
    exact hy

/-- Clauses joined by `||`, in parentheses or before a colon. -/
def CondR (ts : List Tok) (e : Expr) : Prop :=
  ∃ F, ∀ n, F ≤ n → ∀ o rest, (o = Op.rparen ∨ o = Op.colon) →
    ∃ y, pBin n 1 (ts ++ .op o :: rest) = some (y, .op o :: rest) ∧ exprOf y = some e

theorem cond_join {c : List Tok} {cs : List (List Tok)} {e : Expr} {es : List Expr} (h : ClauseR c e)
    (hs : Clauses cs es) : CondR (c ++ orToks cs) (es.foldl .or e) := by
  refine ⟨cs.length + 50, fun n hn o rest ho => ?_⟩
  obtain ⟨g, hg, hp⟩ := h
  obtain ⟨o', r, hr, ho'⟩ := orToks_head cs rest ho
  obtain ⟨k, rfl⟩ := Nat.exists_eq_add_of_le' hn
  obtain ⟨m', hm', hb⟩ := hp 1 (.inl rfl) (k + cs.length + 30) o' r ho'
  obtain ⟨j, hj⟩ : ∃ j, m' + 1 = j + cs.length + 22 := ⟨m' + 1 - cs.length - 22, by omega⟩
  obtain ⟨y, hy, he⟩ := or_loop hs ho j rest g e hg
  refine ⟨y, ?_, he⟩
  have hk : k + (cs.length + 50) = k + cs.length + 30 + 20 := by omega
  rw [hk, List.append_assoc, hr, hb, hj, ← hr, hy]

/-- One text per clause. -/
inductive ClausesT : List GenText.Text → List Expr → Prop
  | nil : ClausesT [] []
  | cons {t : GenText.Text} {c : List Tok} {e : Expr} {ts : List GenText.Text} {es : List Expr} :
      Lexes false t c → opens t = true → ClauseR c e → ClausesT ts es → ClausesT (t :: ts) (e :: es)

theorem join_lex : ∀ {ts : List GenText.Text} {es : List Expr} {t : GenText.Text} {c : List Tok}, Lexes false t c → ClausesT ts es →
    ∃ cs, Lexes false (GenText.join (lit " || ") (t :: ts)) (c ++ orToks cs) ∧ Clauses cs es
  | [], _, t, c, h, .nil => ⟨[], by simpa [GenText.join, orToks] using h, .nil⟩
  | t' :: ts, _, t, c, h, .cons (c := c') h1 h2 h3 h4 => by
    obtain ⟨cs, hl, hc⟩ := join_lex h1 h4
    refine ⟨c' :: cs, ?_, .cons h3 hc⟩
    have ho : opens (GenText.join (lit " || ") (t' :: ts)) = true := by
      cases t' with
      | nil => simp [opens] at h2
      | cons a t' => cases ts <;> simpa [GenText.join, opens] using h2
    have := h.cat (l := lit " || ") (by decide) (show scan .start true (lit " || ") = ([.op .or], .start, false) by decide) rfl hl ho
    simpa [GenText.join, orToks, cut] using this

theorem opens_join {t : GenText.Text} {ts : List GenText.Text} (h : opens t = true) : opens (GenText.join (lit " || ") (t :: ts)) = true := by
  cases t with
  | nil => simp [opens] at h
  | cons a t' => cases ts <;> simpa [GenText.join, opens] using h

theorem lex_lv {l : LV} (h : LVGood l) : Lexes true (lvText l) (lvToks l) := by
  have hf : ∀ {x f : String}, GoIdent x → GoIdent f → Lexes true (lit x ++ lit "." ++ lit f) [.id x, .op .dot, .id f] := by
    intro x f hx hf
    have := (lex_ident hx).cat (l := lit ".") (by decide) (show scan .start true (lit ".") = ([], .op ['.'], true) by decide) rfl
      (lex_ident hf) (opens_ident hf)
    rw [List.append_assoc]
    exact this
  cases l with
  | var x => exact lex_ident h
  | field x f => exact hf h.1 h.2
  | index x f i =>
    have := ((hf h.1 h.2.1).cat (l := lit "[") (by decide) (show scan .start true (lit "[") = ([], .op ['['], true) by decide) rfl
      (lex_ident h.2.2) (opens_ident h.2.2)).closeB (d' := true)
    simpa [lvText, lvToks, lit, show (cut (.op ['[']) true).1 = [.op .lbrack] from rfl] using this

theorem opens_append {t u : GenText.Text} (h : opens t = true) : opens (t ++ u) = true := by
  cases t with
  | nil => simp [opens] at h
  | cons a t' => simpa [opens] using h

theorem opens_lv {l : LV} (h : LVGood l) : opens (lvText l) = true := by
  cases l with
  | var x => exact opens_ident h
  | field x f => rw [lvText, List.append_assoc]; exact opens_append (opens_ident h.1)
  | index x f i =>
    simp only [lvText, List.append_assoc]; exact opens_append (opens_ident h.1)

theorem clause_text {g : Gen.Cfg} {l : LV} {r : IntegerRange} {e : Expr} (hg : CfgOK g) (hl : LVGood l)
    (hr : IntOK r.low ∧ ∀ h, r.high = some h → IntOK h) (h : Gen.clause g l.expr r = .ok e) :
    ∃ t c, GenText.clause g (lvText l) r = .ok t ∧ Lexes false t c ∧ opens t = true ∧ ClauseR c e := by
  cases hh : r.high with
  | none =>
    simp only [Gen.clause, hh] at h
    obtain ⟨k, hk, h⟩ := bind_ok h
    obtain ⟨n, rfl, hn⟩ := integer_ok hg hr.1 hk
    simp only [Res.ok.injEq] at h
    subst h
    refine ⟨_, _, by simp [GenText.clause, hh, hn]; rfl, ?_, ?_, clause_eq⟩
    · have := (lex_lv hl).cat (l := lit " == ") (by decide) (show scan .start true (lit " == ") = ([.op .eq], .start, false) by decide) rfl
        (lex_nat n) (opens_nat n)
      simpa [cut] using this
    · exact opens_append (opens_lv hl)
  | some hi =>
    simp only [Gen.clause, hh] at h
    obtain ⟨k, hk, h⟩ := bind_ok h
    obtain ⟨k', hk', h⟩ := bind_ok h
    obtain ⟨n, rfl, hn⟩ := integer_ok hg hr.1 hk
    obtain ⟨n', rfl, hn'⟩ := integer_ok hg (hr.2 _ hh) hk'
    simp only [Res.ok.injEq] at h
    subst h
    refine ⟨_, _, by simp [GenText.clause, hh, hn, hn']; rfl, ?_, rfl, clause_range⟩
    have h1 := (lex_nat n).cat (l := lit " <= ") (by decide) (show scan .start true (lit " <= ") = ([.op .le], .start, false) by decide) rfl
        (lex_lv hl) (opens_lv hl)
    have h2 := h1.cat (l := lit " && ") (by decide) (show scan .start true (lit " && ") = ([.op .and], .start, false) by decide) rfl
        (lex_lv hl) (opens_lv hl)
    have h3 := (h2.cat (l := lit " <= ") (by decide) (show scan .start true (lit " <= ") = ([.op .le], .start, false) by decide) rfl
        (lex_nat n') (opens_nat n')).close (d' := false)
    have h4 := h3.after (l := lit "(") (us := []) (m := .op ['(']) (vs := [.op .lparen])
      (by simp only [List.append_assoc]; exact opens_append (opens_nat n)) (fun s => ⟨s, rfl⟩) rfl (fun s => rfl)
    simpa [cut, lit] using h4

theorem clauses_text {g : Gen.Cfg} {l : LV} (hg : CfgOK g) (hl : LVGood l) : ∀ {rs : List IntegerRange} {es : List Expr},
    (∀ r ∈ rs, IntOK r.low ∧ ∀ h, r.high = some h → IntOK h) → Gen.clauses g l.expr rs = .ok es →
    ∃ ts, GenText.clauses g (lvText l) rs = .ok ts ∧ ClausesT ts es
  | [], es, _, h => by
    simp only [Gen.clauses, Res.ok.injEq] at h
    subst h
    exact ⟨[], rfl, .nil⟩
  | r :: rs, es, hr, h => by
    simp only [Gen.clauses] at h
    obtain ⟨e, he, h⟩ := bind_ok h
    obtain ⟨es', hes, h⟩ := bind_ok h
    simp only [Res.ok.injEq] at h
    subst h
    obtain ⟨t, c, ht, h1, h2, h3⟩ := clause_text hg hl (hr r (List.mem_cons_self ..)) he
    obtain ⟨ts, hts, h4⟩ := clauses_text hg hl (fun r' h' => hr r' (List.mem_cons_of_mem _ h')) hes
    exact ⟨t :: ts, by simp [GenText.clauses, ht, hts], .cons h1 h2 h3 h4⟩

/-- Conditions. -/
theorem conditional_text {g : Gen.Cfg} {l : LV} {il : IntegerList} {e : Expr} (hg : CfgOK g) (hl : LVGood l) (hi : ListOK il)
    (h : Gen.conditional g l.expr il = .ok e) :
    ∃ t c, GenText.conditional g (lvText l) il = .ok t ∧ Lexes false t c ∧ opens t = true ∧ CondR c e := by
  simp only [Gen.conditional] at h
  obtain ⟨es, hes, h⟩ := bind_ok h
  simp only [Res.ok.injEq] at h
  subst h
  obtain ⟨ts, hts, hc⟩ := clauses_text hg hl hi.2 hes
  cases hc with
  | nil =>
    exfalso
    apply hi.1
    cases hr : il.ranges with
    | nil => rfl
    | cons r rs =>
      rw [hr] at hes
      simp only [Gen.clauses] at hes
      obtain ⟨_, _, hes⟩ := bind_ok hes
      obtain ⟨_, _, hes⟩ := bind_ok hes
      simp at hes
  | cons h1 h2 h3 h4 =>
    obtain ⟨cs, hl', hcs⟩ := join_lex h1 h4
    exact ⟨_, _, by simp [GenText.conditional, hts], hl', opens_join h2, cond_join h3 hcs⟩

end Verif.Go.Read
