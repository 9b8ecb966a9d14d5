import Verif.PegDiagMax
import Verif.PegLex
/-!
# What errors are recorded

Every error recorded during a parse is about an invalid byte, at its position, or about a number that has no value, at the
position of the number.
-/
namespace Verif.Peg
open Verif Verif.Ast Verif.Syntax

set_option linter.unusedSimpArgs false
set_option linter.unusedVariables false

/-! ## Numbers without a value, as specified -/

/-- A number as written, its base and its digits. -/
inductive Numeral : List Char → Nat → List Char → Prop
  | dec (c : Char) (ds : List Char) : c ≠ '0' → (∀ x ∈ c :: ds, x.isDigit = true) → Numeral (c :: ds) 10 (c :: ds)
  | oct (ds : List Char) : ds ≠ [] → (∀ x ∈ ds, isOctDigit x = true) → Numeral ('0' :: ds) 8 ds
  | hex (ds : List Char) : ds ≠ [] → (∀ x ∈ ds, isHexDigit x = true) → Numeral ('0' :: 'x' :: ds) 16 ds

/-- What is wrong with a number: it starts like an octal number and goes on with another digit, or it is too large. -/
inductive Wrong : List Char → String → Prop
  | syn (c : Char) (ds : List Char) : c = '8' ∨ c = '9' → (∀ x ∈ ds, x.isDigit = true) → Wrong ('0' :: c :: ds) "invalid syntax"
  | range {t : List Char} {b : Nat} {ds : List Char} : Numeral t b ds → 2 ^ 63 ≤ number b ds → Wrong t "value out of range"

/-- An error that should be recorded for a text. -/
def Good (rs : List Rune) (x : PErr) : Prop :=
  match x.inner with
  | .encoding => ∃ k b, rs[k]? = some (.bad b) ∧ x.pos = posAt rs k
  | .action t => x.rule = some .IntLiteral ∧ ∃ k, k ≤ rs.length ∧ x.pos = posAt rs k ∧ t <+: rs.drop k ∧
      ∃ cs why, t = cs.map .ok ∧ Wrong cs why

/-! ## Reading numbers in any text -/

theorem ofBad {r : Rune} {a : List Char} {b : List (Char × Char)} (h : inClass a b r.char = true) (hn : inClass a b '�' = false) :
    ∃ c, r = .ok c ∧ inClass a b c = true := by
  cases r with
  | ok c => exact ⟨c, rfl, h⟩
  | bad x => rw [show (Rune.bad x).char = '�' from rfl, hn] at h; cases h

theorem evStar_cls (g : RuleName → Expr) (a : List Char) (b : List (Char × Char)) (env : Env) : ∀ n vals st, st.rest.length = n →
    ∃ vs ds st', evStar g (.cls a b) env vals st = .ok (.list vs) env st' ∧ st.rest = ds ++ st'.rest ∧
      ∀ r ∈ ds, inClass a b r.char = true := by
  intro n
  induction n with
  | zero =>
    intro vals st h
    have h0 := List.length_eq_zero_iff.1 h
    rw [evStar_eq, ev_cls, h0]
    exact ⟨vals, [], st, rfl, by simp [h0], by simp⟩
  | succ n ih =>
    intro vals st h
    rw [evStar_eq, ev_cls]
    cases hr : st.rest with
    | nil => rw [hr] at h; cases h
    | cons r t =>
      by_cases hin : inClass a b r.char = true
      · simp only [hin, if_true]
        have e : st.read.rest = t := by simp [St.read, hr]
        obtain ⟨vs, ds, st', h1, h2, h3⟩ := ih (vals ++ [.bytes [r]]) st.read (by rw [e]; rw [hr] at h; simpa using h)
        refine ⟨vs, r :: ds, st', h1, by rw [e] at h2; rw [h2]; rfl, ?_⟩
        intro x hx
        rcases List.mem_cons.1 hx with rfl | hx
        · exact hin
        · exact h3 x hx
      · simp only [hin]
        exact ⟨vals, [], st, rfl, by simp [hr], by simp⟩

theorem ev_plus_cls {g : RuleName → Expr} {a : List Char} {b : List (Char × Char)} {env : Env} {st : St} :
    (∃ v ds st', ev g (.plus (.cls a b)) env st = .ok v env st' ∧ ds ≠ [] ∧ st.rest = ds ++ st'.rest ∧
      ∀ r ∈ ds, inClass a b r.char = true) ∨
    ((∃ st', ev g (.plus (.cls a b)) env st = .fail st') ∧ ∀ r t, st.rest = r :: t → inClass a b r.char = false) := by
  rw [ev_plus, ev_cls]
  cases hr : st.rest with
  | nil => exact .inr ⟨⟨_, rfl⟩, by simp⟩
  | cons r t =>
    by_cases hin : inClass a b r.char = true
    · left
      have e : st.read.rest = t := by simp [St.read, hr]
      obtain ⟨vs, ds, st', h1, h2, h3⟩ := evStar_cls g a b env _ [.bytes [r]] st.read rfl
      simp only [hin, if_true]
      refine ⟨_, r :: ds, st', h1, by simp, by rw [e] at h2; rw [h2]; rfl, ?_⟩
      intro x hx
      rcases List.mem_cons.1 hx with rfl | hx
      · exact hin
      · exact h3 x hx
    · right
      simp only [hin]
      refine ⟨⟨_, rfl⟩, ?_⟩
      rintro _ _ ⟨rfl, rfl⟩
      simpa using hin

theorem litLoop_split (cs : List Char) : ∀ st,
    ((litLoop cs st).1 = true → ∃ p, st.rest = p ++ (litLoop cs st).2.rest ∧ p.map Rune.char = cs) ∧
    ((litLoop cs st).1 = false → ¬ cs <+: st.rest.map Rune.char) := by
  induction cs with
  | nil => intro st; exact ⟨fun _ => ⟨[], rfl, rfl⟩, fun h => by cases h⟩
  | cons c cs ih =>
    intro st
    simp only [litLoop]
    cases hr : st.rest with
    | nil => exact ⟨fun h => (by cases h), fun _ => by simp⟩
    | cons r t =>
      have e : st.read.rest = t := by simp [St.read, hr]
      simp only
      split
      · next hc =>
        obtain ⟨h1, h2⟩ := ih st.read
        rw [e] at h1 h2
        refine ⟨fun h => ?_, fun h => ?_⟩
        · obtain ⟨p, hp, hm⟩ := h1 h
          exact ⟨r :: p, by rw [hp]; rfl, by simp [hc, hm]⟩
        · rw [List.map_cons, List.cons_prefix_cons]
          exact fun hx => h2 h hx.2
      · next hc =>
        refine ⟨fun h => (by cases h), fun _ => ?_⟩
        rw [List.map_cons, List.cons_prefix_cons]
        exact fun hx => hc hx.1.symm

theorem ev_lit_split {g : RuleName → Expr} (s : String) (env : Env) (st : St) :
    (∃ v st' p, ev g (.lit s) env st = .ok v env st' ∧ st.rest = p ++ st'.rest ∧ p.map Rune.char = s.toList) ∨
    ((∃ st', ev g (.lit s) env st = .fail st') ∧ ¬ s.toList <+: st.rest.map Rune.char) := by
  rw [ev_lit]
  obtain ⟨h1, h2⟩ := litLoop_split s.toList st
  cases hr : litLoop s.toList st with
  | mk b st' =>
    rw [hr] at h1 h2
    cases b with
    | true =>
      obtain ⟨p, hp, hm⟩ := h1 rfl
      exact .inl ⟨_, st', p, rfl, hp, hm⟩
    | false => exact .inr ⟨⟨_, rfl⟩, h2 rfl⟩

theorem ev_lit_val {g : RuleName → Expr} {s : String} {env env' : Env} {st st' : St} {v : Val} (h : ev g (.lit s) env st = .ok v env' st') :
    ∃ p, v = .bytes p ∧ p.map Rune.char = s.toList := by
  rw [ev_lit] at h
  obtain ⟨h1, _⟩ := litLoop_split s.toList st
  cases hr : litLoop s.toList st with
  | mk b st1 =>
    rw [hr] at h h1
    cases b with
    | false => cases h
    | true =>
      obtain ⟨p, hp, hm⟩ := h1 rfl
      simp only [R.ok.injEq] at h
      obtain ⟨rfl, _, rfl⟩ := h
      refine ⟨p, ?_, hm⟩
      simp only at hp
      simp [St.slice, hp]

theorem intType_bits {st st' : St} {env' : Env} {v : Val}
    (h : ev rules (.seq [.lit "u", .label "b" (.choice [.lit "8", .lit "16", .lit "32", .lit "64"])]) [] st = .ok v env' st') :
    ∃ t m, Env.get env' "b" = .bytes t ∧ digits 10 (t.map Rune.char) 0 = some m := by
  have key : ∀ (es : List String), (∀ s ∈ es, ∃ m, digits 10 s.toList 0 = some m) → ∀ st v env1 st1,
      choiceLoop (ev rules) (es.map Expr.lit) [] st = .ok v env1 st1 → ∃ t m, v = .bytes t ∧ digits 10 (t.map Rune.char) 0 = some m := by
    intro es
    induction es with
    | nil => intro _ st v env1 st1 h; cases h
    | cons s es ih =>
      intro hs st v env1 st1 h
      simp only [List.map_cons, choiceLoop] at h
      cases hr : ev rules (.lit s) [] st with
      | ok w e s1 =>
        rw [hr] at h
        simp only [R.ok.injEq] at h
        obtain ⟨rfl, _, _⟩ := h
        obtain ⟨p, rfl, hp⟩ := ev_lit_val hr
        obtain ⟨m, hm⟩ := hs s List.mem_cons_self
        exact ⟨p, m, rfl, by rw [hp]; exact hm⟩
      | fail s1 => rw [hr] at h; exact ih (fun x hx => hs x (List.mem_cons_of_mem _ hx)) _ _ _ _ h
      | panic => rw [hr] at h; cases h
      | timeout => rw [hr] at h; cases h
  rw [ev_seq] at h
  simp only [seqLoop] at h
  cases hu : ev rules (.lit "u") [] st with
  | ok w e s1 =>
    rw [hu] at h
    simp only [ev_label] at h
    cases hc : ev rules (.choice [.lit "8", .lit "16", .lit "32", .lit "64"]) [] s1 with
    | ok w2 e2 s2 =>
      rw [hc] at h
      simp only [R.labelled, R.ok.injEq] at h
      obtain ⟨_, rfl, _⟩ := h
      rw [ev_choice] at hc
      obtain ⟨t, m, rfl, hm⟩ := key ["8", "16", "32", "64"] (by
        intro s hs
        simp only [List.mem_cons, List.not_mem_nil, or_false] at hs
        rcases hs with rfl | rfl | rfl | rfl
        · exact ⟨8, by decide⟩
        · exact ⟨16, by decide⟩
        · exact ⟨32, by decide⟩
        · exact ⟨64, by decide⟩) _ _ _ _ hc
      exact ⟨t, m, by simp [Env.get, List.lookup], hm⟩
    | fail s2 => rw [hc] at h; cases h
    | panic => rw [hc] at h; cases h
    | timeout => rw [hc] at h; cases h
  | fail s1 => rw [hu] at h; cases h
  | panic => rw [hu] at h; cases h
  | timeout => rw [hu] at h; cases h

theorem ok_of_char {r : Rune} {c : Char} (h : r.char = c) (hc : c ≠ '�') : r = .ok c := by
  cases r with
  | ok d => exact congrArg _ h
  | bad b => exact absurd h.symm hc

/-- Runes of a class without U+FFFD are characters. -/
theorem map_of_class {a : List Char} {b : List (Char × Char)} {ds : List Rune} (h : ∀ r ∈ ds, inClass a b r.char = true)
    (hn : inClass a b '�' = false) : ∃ cs : List Char, ds = cs.map .ok ∧ ∀ c ∈ cs, inClass a b c = true := by
  induction ds with
  | nil => exact ⟨[], rfl, by simp⟩
  | cons r ds ih =>
    obtain ⟨cs, h1, h2⟩ := ih (fun x hx => h x (List.mem_cons_of_mem _ hx))
    obtain ⟨c, rfl, hc⟩ := ofBad (h r List.mem_cons_self) hn
    refine ⟨c :: cs, by rw [h1]; rfl, ?_⟩
    intro x hx
    rcases List.mem_cons.1 hx with rfl | hx
    · exact hc
    · exact h2 x hx

theorem map_of_lit {p : List Rune} {cs : List Char} (h : p.map Rune.char = cs) (hn : '�' ∉ cs) : p = cs.map .ok := by
  induction p generalizing cs with
  | nil => subst h; rfl
  | cons r p ih =>
    cases cs with
    | nil => cases h
    | cons c cs =>
      simp only [List.map_cons, List.cons.injEq] at h
      rw [ok_of_char h.1 (by rintro rfl; simp at hn), ih h.2 (by intro hx; exact hn (List.mem_cons_of_mem _ hx))]
      rfl

theorem ev_ref_cases {r : RuleName} {env : Env} {st : St} {v : Val} {env' : Env} {st' : St}
    (h : ev rules (.ref r) env st = .ok v env' st') : ∃ env1, ev rules (rules r) [] st = .ok v env1 st' := by
  rw [ev_ref] at h
  cases hr : ev rules (rules r) [] st <;> rw [hr] at h <;> simp only [R.scope] at h <;> cases h
  exact ⟨_, rfl⟩

theorem hex_shape {env env' : Env} {st st' : St} {v : Val} (h : ev rules (.ref .HexLiteral) env st = .ok v env' st') :
    ∃ ds, ds ≠ [] ∧ (∀ x ∈ ds, isHexDigit x = true) ∧ st.rest = ('0' :: 'x' :: ds).map .ok ++ st'.rest := by
  obtain ⟨env1, h⟩ := ev_ref_cases h
  rw [show rules .HexLiteral = rHexLiteral from rfl, rHexLiteral, ev_seq] at h
  simp only [seqLoop] at h
  rcases ev_lit_split (g := rules) "0x" [] st with ⟨w, st1, p, h1, h2, h3⟩ | ⟨⟨_, h1⟩, _⟩
  · rw [h1] at h
    simp only at h
    rcases ev_plus_cls (g := rules) (a := []) (b := [('0', '9'), ('a', 'f'), ('A', 'F')]) (env := []) (st := st1) with
      ⟨w2, ds, st2, h4, h5, h6, h7⟩ | ⟨⟨_, h4⟩, _⟩
    · rw [h4] at h
      simp only [R.ok.injEq] at h
      obtain ⟨_, _, rfl⟩ := h
      obtain ⟨cs, rfl, hcs⟩ := map_of_class h7 (by decide)
      obtain rfl := map_of_lit h3 (by decide)
      refine ⟨cs, by rintro rfl; exact h5 rfl, fun x hx => by rw [← cls_hex]; exact hcs x hx, ?_⟩
      rw [h2, h6]; rfl
    · rw [h4] at h; cases h
  · rw [h1] at h; cases h

theorem oct_shape (env : Env) (st : St) :
    (∃ v st' ds, ev rules (.ref .OctalLiteral) env st = .ok v env st' ∧ ds ≠ [] ∧ (∀ x ∈ ds, isOctDigit x = true) ∧
      st.rest = ('0' :: ds).map .ok ++ st'.rest) ∨
    ((∃ st', ev rules (.ref .OctalLiteral) env st = .fail st') ∧
      ∀ c t, st.rest = .ok '0' :: .ok c :: t → isOctDigit c = false) := by
  rw [ev_ref, show rules .OctalLiteral = rOctalLiteral from rfl, rOctalLiteral, ev_seq]
  simp only [seqLoop]
  rcases ev_lit_split (g := rules) "0" [] st with ⟨w, st1, p, h1, h2, h3⟩ | ⟨⟨_, h1⟩, h2⟩
  · rw [h1]
    simp only
    obtain rfl := map_of_lit h3 (by decide)
    rcases ev_plus_cls (g := rules) (a := []) (b := [('0', '7')]) (env := []) (st := st1) with
      ⟨w2, ds, st2, h4, h5, h6, h7⟩ | ⟨⟨_, h4⟩, h5⟩
    · left
      rw [h4]
      obtain ⟨cs, rfl, hcs⟩ := map_of_class h7 (by decide)
      refine ⟨_, st2, cs, rfl, by rintro rfl; exact h5 rfl, fun x hx => by rw [← cls_oct]; exact hcs x hx, ?_⟩
      rw [h2, h6]; rfl
    · right
      rw [h4]
      refine ⟨⟨_, rfl⟩, ?_⟩
      intro c t ht
      rw [h2] at ht
      have : st1.rest = .ok c :: t := by simpa using ht
      have := h5 _ _ this
      rw [cls_oct] at this
      exact this
  · right
    rw [h1]
    refine ⟨⟨_, rfl⟩, ?_⟩
    intro c t ht
    rw [ht] at h2
    exact absurd ⟨_, rfl⟩ h2

theorem dec_shape {env env' : Env} {st st' : St} {v : Val} (h : ev rules (.ref .DecimalLiteral) env st = .ok v env' st') :
    ∃ ds, ds ≠ [] ∧ (∀ x ∈ ds, x.isDigit = true) ∧ st.rest = ds.map .ok ++ st'.rest := by
  obtain ⟨env1, h⟩ := ev_ref_cases h
  rw [show rules .DecimalLiteral = rDecimalLiteral from rfl, rDecimalLiteral] at h
  rcases ev_plus_cls (g := rules) (a := []) (b := [('0', '9')]) (env := []) (st := st) with
    ⟨w2, ds, st2, h4, h5, h6, h7⟩ | ⟨⟨_, h4⟩, _⟩
  · rw [h4] at h
    simp only [R.ok.injEq] at h
    obtain ⟨_, _, rfl⟩ := h
    obtain ⟨cs, rfl, hcs⟩ := map_of_class h7 (by decide)
    exact ⟨cs, by rintro rfl; exact h5 rfl, fun x hx => by rw [← cls_digit]; exact hcs x hx, h6⟩
  · rw [h4] at h; cases h

theorem oct_of_digit {d : Char} (hd : d.isDigit = true) (ho : isOctDigit d = false) : d = '8' ∨ d = '9' := by
  have h1 : 48 ≤ d.toNat ∧ d.toNat ≤ 57 := by
    simp only [Char.isDigit, Bool.and_eq_true, decide_eq_true_eq] at hd
    exact hd
  have h2 : ¬ d.toNat ≤ 55 := by
    intro h
    have : isOctDigit d = true := by
      simp only [isOctDigit, Bool.and_eq_true, decide_eq_true_eq]
      exact ⟨h1.1, h⟩
    rw [this] at ho; cases ho
  have h3 : d.toNat = 56 ∨ d.toNat = 57 := by omega
  rcases h3 with h3 | h3
  · left; apply Char.ext; apply UInt32.toNat_inj.1; exact h3
  · right; apply Char.ext; apply UInt32.toNat_inj.1; exact h3

/-- Where the action of `IntLiteral` fails, the number is wrong. -/
theorem int_wrong {env' : Env} {st st' : St} {v : Val}
    (h : ev rules (.choice [.ref .HexLiteral, .ref .OctalLiteral, .ref .DecimalLiteral]) [] st = .ok v env' st')
    (he : (parseInt ((St.slice st st').map Rune.char)).2 = true) :
    ∃ cs why, St.slice st st' = cs.map .ok ∧ Wrong cs why := by
  have key : ∀ cs : List Char, st.rest = cs.map .ok ++ st'.rest → St.slice st st' = cs.map .ok := by
    intro cs hc
    simp [St.slice, hc]
  have v63 : ∀ n, (val63 n).2 = true → 2 ^ 63 ≤ n := by
    intro n hn
    simp only [val63] at hn
    split at hn
    · cases hn
    · omega
  rw [ev_choice] at h
  simp only [choiceLoop] at h
  cases hx : ev rules (.ref .HexLiteral) [] st with
  | ok w e s =>
    rw [hx] at h
    simp only [R.ok.injEq] at h
    obtain ⟨_, _, rfl⟩ := h
    obtain ⟨ds, h1, h2, h3⟩ := hex_shape hx
    have hs := key _ h3
    rw [hs, char_ok] at he
    cases ds with
    | nil => exact absurd rfl h1
    | cons d ds =>
      rw [parseInt_hex h2] at he
      exact ⟨_, _, hs, .range (.hex _ h1 h2) (v63 _ he)⟩
  | panic => rw [hx] at h; cases h
  | timeout => rw [hx] at h; cases h
  | fail s1 =>
    rw [hx] at h
    simp only at h
    have hm1 := ev_moves rules (.ref .HexLiteral) [] st
    rw [hx] at hm1
    have r1 : s1.rest = st.rest := hm1.1
    rcases oct_shape [] { s1 with ling := st.ling } with ⟨w, s2, ds, h1, h2, h3, h4⟩ | ⟨⟨s2, h1⟩, h2⟩
    · rw [h1] at h
      simp only [R.ok.injEq] at h
      obtain ⟨_, _, rfl⟩ := h
      have h4 : st.rest = _ := r1 ▸ h4
      have hs := key _ h4
      rw [hs, char_ok, parseInt_oct h3] at he
      exact ⟨_, _, hs, .range (.oct _ h2 h3) (v63 _ he)⟩
    · rw [h1] at h
      simp only at h
      have h2 : ∀ c t, st.rest = .ok '0' :: .ok c :: t → isOctDigit c = false := fun c t ht => h2 c t (by rw [← ht]; exact r1)
      have hm2 := ev_moves rules (.ref .OctalLiteral) [] { s1 with ling := st.ling }
      rw [h1] at hm2
      have r2 : s2.rest = st.rest := hm2.1.trans r1
      cases hd : ev rules (.ref .DecimalLiteral) [] { s2 with ling := st.ling } with
      | ok w e s =>
        rw [hd] at h
        simp only [R.ok.injEq] at h
        obtain ⟨_, _, rfl⟩ := h
        obtain ⟨ds, h3, h4, h5⟩ := dec_shape hd
        have h5 : st.rest = _ := r2 ▸ h5
        have hs := key _ h5
        rw [hs, char_ok] at he
        cases ds with
        | nil => exact absurd rfl h3
        | cons c ds =>
          by_cases h0 : c = '0'
          · subst h0
            cases ds with
            | nil => exact absurd he (by decide)
            | cons d ds =>
              have hdd := h4 d (by simp)
              exact ⟨_, _, hs, .syn d ds (oct_of_digit hdd (h2 d _ (by rw [h5]; rfl))) (fun x hx => h4 x (by simp [hx]))⟩
          · rw [parseInt_dec h0 h4] at he
            exact ⟨_, _, hs, .range (.dec c ds h0 h4) (v63 _ he)⟩
      | fail s => rw [hd] at h; cases h
      | panic => rw [hd] at h; cases h
      | timeout => rw [hd] at h; cases h

/-! ## Which actions fail -/

mutual
/-- No action of the expression returns an error, and code only adds structs to the lingering declarations. -/
def Calm : Expr → Prop
  | .action e run => Calm e ∧ ∀ env t l v err, run env t l = some (v, err) → err = false
  | .seq es => CalmAll es ∨ es = [.label "s" (.ref .StructDecl), .code onStructRef6]
  | .choice es => CalmAll es
  | .label _ e => Calm e
  | .star e => Calm e
  | .plus e => Calm e
  | .opt e => Calm e
  | .not e => Calm e
  | .code _ => False
  | _ => True
def CalmAll : List Expr → Prop
  | [] => True
  | e :: es => Calm e ∧ CalmAll es
end

theorem act_quiet {x : Option Val} {v : Val} {err : Bool} (h : act x = some (v, err)) : err = false := by
  cases x with
  | none => cases h
  | some x => simp only [act, Option.map_some, Option.some.injEq, Prod.mk.injEq] at h; exact h.2.symm

theorem some_quiet {x v : Val} {err : Bool} (h : some (x, false) = some (v, err)) : err = false := by
  cases h; rfl

/-- The rules whose action may return an error, seen from the action alone. -/
def noisy : RuleName → Bool
  | .File | .IntType | .IntLiteral => true
  | _ => false

set_option maxRecDepth 4000 in
theorem calm_rule (r : RuleName) (h : noisy r = false) : Calm (rules r) := by
  cases r <;> first
    | exact absurd h (by decide)
    | (simp only [rules, rDeclaration, rConstDeclaration, rContextDeclaration, rContextMember, rStructDeclaration, rStructDecl,
        rStructIdentifier, rExternDeclaration, rPragmaDeclaration, rContextRefs, rStructMember, rStructEnding, rStructEOS, rSMArray,
        rSMFixedArray, rSMVarArray, rLengthConstraint, rLeftover, rSMRemainder, rArrayBase, rSMInteger, rSMPosition, rSMString,
        rSMStruct, rSMUnion, rUnionLength, rUnionMember, rUnionCase, rUnionBody, rUnionFields, rUnionField, rExtentSpec, rStructRef,
        rCharType, rIntConstraint, rIntList, rIntListMember, rInteger, rIntegerConstRef, rIntegerLiteral, rIDRef, rIdentifierList,
        rIdentifier, rConstIdentifier, rDecimalLiteral, rHexLiteral, rOctalLiteral, rSourceChar, rComment, rMultiLineComment,
        rSingleLineComment, rgap1, rgap, rSkip, rWhitespace, rEOL, rEOF, Calm, CalmAll, true_and, and_true, true_or]
       try and_intros
       all_goals first
         | trivial
         | exact fun _ _ _ _ _ h => act_quiet h
         | exact fun _ _ _ _ _ h => some_quiet h
         | skip)

/-! ## The errors of a run -/

/-- Recorded errors are as they should be, and lingering declarations are structs. -/
def Okay (rs : List Rune) (st : DSt) : Prop := (∀ x ∈ st.errs, Good rs x) ∧ ∀ v ∈ st.ling, ∃ s, v = .struct s

/-- `Okay` for the state of a result. -/
def OkayR (rs : List Rune) : DR → Prop
  | .ok _ _ st => Okay rs st
  | .fail st => Okay rs st
  | _ => True

/-- The state of a result is at a position. -/
def InvR (rs : List Rune) : DR → Prop
  | .ok _ _ st => Inv rs st
  | .fail st => Inv rs st
  | _ => True

theorem parseD_inv {rs : List Rune} (n : Nat) (rule : Option RuleName) (inv : Bool) (e : Expr) (env : Env) (st : DSt) (hi : Inv rs st) :
    InvR rs (parseD rules n rule inv e env st) := by
  have h := parseD_reached rules n rule inv e env st hi
  cases hr : parseD rules n rule inv e env st <;> rw [hr] at h <;> first | trivial | exact h.1

section
variable {rs : List Rune}

theorem read_okay {st : DSt} (rule : Option RuleName) (hi : Inv rs st) (hr : st.rest ≠ []) (h : Okay rs st) : Okay rs (st.read rule) := by
  refine ⟨?_, h.2⟩
  obtain ⟨k, ha, _⟩ := hi
  have hk : k < rs.length := by
    rcases Nat.lt_or_ge k rs.length with hlt | hge
    · exact hlt
    · exact absurd (by rw [ha.rest, List.drop_eq_nil_iff]; exact hge) hr
  have h1 := read_at rule ha hk
  intro x hx
  simp only [DSt.read, DSt.look] at hx
  split at hx
  · next hb =>
    rw [List.mem_append, List.mem_singleton] at hx
    rcases hx with hx | rfl
    · exact h.1 x hx
    · refine ⟨k + 1, ?_⟩
      have hd : st.rest.drop 1 = rs.drop (k + 1) := by rw [ha.rest, List.drop_drop]
      rw [hd] at hb
      cases hc : rs[k + 1]? with
      | none =>
        rw [List.getElem?_eq_none_iff] at hc
        rw [List.drop_eq_nil_iff.2 hc] at hb
        cases hb
      | some r =>
        rw [headBad_drop hc] at hb
        cases r with
        | ok c => cases hb
        | bad b => exact ⟨b, rfl, h1.pos⟩
  · exact h.1 x hx

theorem dLitLoop_okay (rule : Option RuleName) (cs : List Char) : ∀ st, Inv rs st → Okay rs st → Okay rs (dLitLoop rule cs st).2 := by
  induction cs with
  | nil => intro st _ h; exact h
  | cons c cs ih =>
    intro st hi h
    simp only [dLitLoop]
    cases hr : st.rest with
    | nil => exact h
    | cons r t =>
      simp only
      split
      · exact ih _ (read_inv rule hi (by rw [hr]; simp)) (read_okay rule hi (by rw [hr]; simp) h)
      · exact h

theorem Okay.same {st st' : DSt} (h : Okay rs st) (h1 : st'.errs = st.errs) (h2 : st'.ling = st.ling) : Okay rs st' := by
  unfold Okay; rw [h1, h2]; exact h

theorem back_okay {st saved : DSt} (h : Okay rs st) (h' : Okay rs saved) : Okay rs (st.back saved) := by
  unfold DSt.back DSt.restore
  split
  · exact ⟨h.1, h'.2⟩
  · exact ⟨h.1, h'.2⟩

theorem restore_okay {st saved : DSt} (h : Okay rs st) : Okay rs (st.restore saved) := by
  unfold DSt.restore
  split
  · exact h
  · exact h

theorem failAt_okay {st : DSt} (i f : Bool) (p : Pos) (w : List Char) (h : Okay rs st) : Okay rs (st.failAt i f p w) :=
  h.same (by simp) (by simp)

theorem dSeqLoop_okay {f : Expr → Env → DSt → DR} (hi : ∀ e env st, Inv rs st → InvR rs (f e env st))
    (hf : ∀ e env st, Calm e → Inv rs st → Okay rs st → OkayR rs (f e env st)) (start : DSt) (hs : Okay rs start) (es : List Expr) :
    CalmAll es → ∀ vals env st, Inv rs st → Okay rs st → OkayR rs (dSeqLoop f start es vals env st) := by
  induction es with
  | nil => intro _ vals env st _ h; exact h
  | cons e es ih =>
    intro hc vals env st h0 h
    simp only [CalmAll] at hc
    have h1 := hi e env st h0
    have h2 := hf e env st hc.1 h0 h
    simp only [dSeqLoop]
    cases hr : f e env st with
    | ok v env' st' => rw [hr] at h1 h2; exact ih hc.2 _ _ _ h1 h2
    | fail st' => rw [hr] at h1 h2; exact back_okay h2 hs
    | _ => trivial

theorem dChoiceLoop_okay {f : Expr → Env → DSt → DR} (hi : ∀ e env st, Inv rs st → InvR rs (f e env st))
    (hf : ∀ e env st, Calm e → Inv rs st → Okay rs st → OkayR rs (f e env st)) (es : List Expr) :
    CalmAll es → ∀ env st, Inv rs st → Okay rs st → OkayR rs (dChoiceLoop f es env st) := by
  induction es with
  | nil => intro _ env st _ h; exact h
  | cons e es ih =>
    intro hc env st h0 h
    simp only [CalmAll] at hc
    have h1 := hi e [] st h0
    have h2 := hf e [] st hc.1 h0 h
    simp only [dChoiceLoop]
    cases hr : f e [] st with
    | ok v env' st' => rw [hr] at h1 h2; exact h2
    | fail st' =>
      rw [hr] at h1 h2
      exact ih hc.2 env _ (Inv.errs h1 rfl rfl (fun _ => id)) ⟨h2.1, h.2⟩
    | _ => trivial

theorem dStarLoop_okay {f : DSt → DR} (hi : ∀ st, Inv rs st → InvR rs (f st))
    (hf : ∀ st, Inv rs st → Okay rs st → OkayR rs (f st)) (env : Env) :
    ∀ n vals st, Inv rs st → Okay rs st → OkayR rs (dStarLoop f env n vals st) := by
  intro n
  induction n with
  | zero => intros; trivial
  | succ n ih =>
    intro vals st h0 h
    have h1 := hi st h0
    have h2 := hf st h0 h
    simp only [dStarLoop]
    cases hr : f st with
    | ok v env' st' => rw [hr] at h1 h2; exact ih _ _ h1 h2
    | fail st' => rw [hr] at h1 h2; exact h2
    | _ => trivial

/-- Labels and values of a run satisfy what can be computed of them. -/
theorem parseD_fits {n : Nat} {rule : Option RuleName} {inv : Bool} {e : Expr} {env env' : Env} {st st' : DSt} {v : Val}
    (hi : Inv rs st) {K : Val → Env → Prop} (h : Wp Shape e env K) (hr : parseD rules n rule inv e env st = .ok v env' st') : K v env' := by
  have h1 := parseD_reached rules n rule inv e env st hi
  rw [hr] at h1
  have h2 := ev_fits h st.forget
  rw [h1.2] at h2
  exact h2

theorem distribute_some : ∀ (l : List Val) (f : File), (∀ v ∈ l, Shape .Declaration v) → ∃ f', distribute l f = some f' := by
  intro l
  induction l with
  | nil => intro f _; exact ⟨f, rfl⟩
  | cons v l ih =>
    intro f h
    have h' : ∀ v ∈ l, Shape .Declaration v := fun x hx => h x (List.mem_cons_of_mem _ hx)
    rcases h v List.mem_cons_self with ⟨c, rfl⟩ | ⟨c, rfl⟩ | ⟨c, rfl⟩ | ⟨c, rfl⟩ <;> exact ih _ h'

/-- Errors recorded by a run are as they should be. -/
theorem parseD_okay : ∀ n rule inv e env st, Calm e → Inv rs st → Okay rs st → OkayR rs (parseD rules n rule inv e env st) := by
  intro n
  induction n using Nat.strongRecOn with
  | _ n ih =>
    cases n with
    | zero => intros; trivial
    | succ n =>
      intro rule inv e env st hc hi h
      have ihn := ih n (by omega)
      cases e with
      | action e run =>
        simp only [Calm] at hc
        simp only [parseD]
        have h1 := ihn rule inv e env st hc.1 hi h
        cases hr : parseD rules n rule inv e env st with
        | ok v env' st' =>
          rw [hr] at h1
          simp only
          cases hrun : run env' (DSt.slice st st') st'.ling with
          | none => trivial
          | some p =>
            obtain ⟨w, err⟩ := p
            obtain rfl := hc.2 _ _ _ _ _ hrun
            exact h1
        | fail st' => rw [hr] at h1; exact h1
        | _ => trivial
      | seq es =>
        simp only [Calm] at hc
        rcases hc with hc | rfl
        · exact dSeqLoop_okay (parseD_inv n rule inv) (ihn rule inv) st h es hc [] env st hi h
        · simp only [parseD, dSeqLoop]
          have h1 := ihn rule inv (.label "s" (.ref .StructDecl)) env st (by simp [Calm]) hi h
          cases hr : parseD rules n rule inv (.label "s" (.ref .StructDecl)) env st with
          | ok v env' st' =>
            rw [hr] at h1
            have h2 : ∃ s, Env.get env' "s" = .struct s :=
              parseD_fits (K := fun _ env' => ∃ s, Env.get env' "s" = .struct s) hi
                (by simp only [Wp]; rintro v ⟨s, rfl⟩; exact ⟨s, rfl⟩) hr
            simp only
            cases n with
            | zero => cases hr
            | succ n =>
              simp only [parseD, onStructRef6]
              refine ⟨h1.1, ?_⟩
              intro x hx
              rw [List.mem_append, List.mem_singleton] at hx
              rcases hx with hx | rfl
              · exact h1.2 x hx
              · exact h2
          | fail st' => rw [hr] at h1; exact back_okay h1 h
          | _ => trivial
      | choice es =>
        simp only [Calm] at hc
        exact dChoiceLoop_okay (parseD_inv n rule inv) (ihn rule inv) es hc env st hi h
      | ref r =>
        simp only [parseD]
        have key : OkayR rs (parseD rules n (some r) inv (rules r) [] st) := by
          cases hn : noisy r with
          | false => exact ihn (some r) inv (rules r) [] st (calm_rule r hn) hi h
          | true =>
            cases n with
            | zero => trivial
            | succ n =>
              have ihm := ih n (by omega)
              cases r <;> first | exact absurd hn (by decide) | skip
              · rw [show rules .File = rFile from rfl, rFile]
                simp only [parseD]
                generalize hq : Expr.seq [.ref .gap, .label "ds" (.star (.ref .Declaration)), .ref .gap, .ref .EOF] = q
                have h1 := ihm (some .File) inv q [] st (by subst hq; simp [Calm, CalmAll]) hi h
                cases hr : parseD rules n (some .File) inv q [] st with
                | ok v env' st' =>
                  rw [hr] at h1
                  obtain ⟨vs, h2, h3⟩ := parseD_fits
                    (K := fun _ env' => ∃ vs, Env.get env' "ds" = .list vs ∧ ∀ x ∈ vs, Shape .Declaration x) hi
                    (by
                      subst hq
                      simp only [Wp, WpSeq]
                      intro v _
                      refine ⟨fun _ _ => trivial, fun vs hvs w _ x _ => ⟨vs, rfl, fun y hy => hvs y hy _ (fun v hv => hv)⟩⟩) hr
                  obtain ⟨f, hf⟩ := distribute_some (vs ++ st'.ling) ⟨[], [], [], []⟩ (by
                    intro x hx
                    rcases List.mem_append.1 hx with hx | hx
                    · exact h3 x hx
                    · exact .inr (.inr (.inl (h1.2 x hx))))
                  have hrun : onFile1 env' (DSt.slice st st') st'.ling = some (.file f, false) := by
                    simp only [onFile1, h2, Val.asList, Option.bind_eq_bind, Option.bind_some, hf]
                  simp only [hrun]
                  exact h1
                | fail st' => rw [hr] at h1; exact h1
                | _ => trivial
              · rw [show rules .IntType = rIntType from rfl, rIntType]
                simp only [parseD]
                generalize hq : Expr.seq [.lit "u", .label "b" (.choice [.lit "8", .lit "16", .lit "32", .lit "64"])] = q
                have h1 := ihm (some .IntType) inv q [] st (by subst hq; simp [Calm, CalmAll]) hi h
                have h0 := parseD_reached (rs := rs) rules n (some .IntType) inv q [] st hi
                cases hr : parseD rules n (some .IntType) inv q [] st with
                | ok v env' st' =>
                  rw [hr] at h0 h1
                  have hb : ∃ t m, Env.get env' "b" = .bytes t ∧ digits 10 (t.map Rune.char) 0 = some m := by
                    subst hq
                    exact intType_bits h0.2
                  obtain ⟨t, m, hb1, hb2⟩ := hb
                  have hrun : onIntType1 env' (DSt.slice st st') st'.ling = some (.intType ⟨m, none⟩, false) := by
                    simp only [onIntType1, hb1, Val.asBytes, Option.bind_eq_bind, Option.bind_some, hb2]
                  simp only [hrun]
                  exact h1
                | fail st' => rw [hr] at h1; exact h1
                | _ => trivial
              · rw [show rules .IntLiteral = rIntLiteral from rfl, rIntLiteral]
                simp only [parseD]
                generalize hq : Expr.choice [.ref .HexLiteral, .ref .OctalLiteral, .ref .DecimalLiteral] = q
                have h1 := ihm (some .IntLiteral) inv q [] st (by subst hq; simp [Calm, CalmAll]) hi h
                have h0 := parseD_reached (rs := rs) rules n (some .IntLiteral) inv q [] st hi
                cases hr : parseD rules n (some .IntLiteral) inv q [] st with
                | ok v env' st' =>
                  rw [hr] at h0 h1
                  simp only [onIntLiteral1]
                  refine ⟨?_, h1.2⟩
                  intro x hx
                  simp only at hx
                  split at hx
                  · next he =>
                    rw [List.mem_append, List.mem_singleton] at hx
                    rcases hx with hx | rfl
                    · exact h1.1 x hx
                    · subst hq
                      obtain ⟨cs, why, h2, h3⟩ := int_wrong h0.2 he
                      obtain ⟨k, ha, _⟩ := hi
                      refine ⟨rfl, k, ha.le, ha.pos, ?_, cs, why, h2, h3⟩
                      rw [← ha.rest]
                      exact List.take_prefix _ _
                  · exact h1.1 x hx
                | fail st' => rw [hr] at h1; exact h1
                | _ => trivial
        cases hr : parseD rules n (some r) inv (rules r) [] st <;> rw [hr] at key <;> first | trivial | exact key
      | label l e =>
        simp only [Calm] at hc
        simp only [parseD]
        have h1 := ihn rule inv e [] st hc hi h
        cases hr : parseD rules n rule inv e [] st <;> rw [hr] at h1 <;> first | trivial | exact h1
      | star e =>
        simp only [Calm] at hc
        exact dStarLoop_okay (parseD_inv n rule inv e []) (fun st => ihn rule inv e [] st hc) env n [] st hi h
      | plus e =>
        simp only [Calm] at hc
        simp only [parseD]
        have h0 := parseD_inv (rs := rs) n rule inv e [] st hi
        have h1 := ihn rule inv e [] st hc hi h
        cases hr : parseD rules n rule inv e [] st <;> rw [hr] at h0 h1 <;> first | trivial | exact h1 | skip
        exact dStarLoop_okay (parseD_inv n rule inv e []) (fun st => ihn rule inv e [] st hc) env n _ _ h0 h1
      | opt e =>
        simp only [Calm] at hc
        simp only [parseD]
        have h1 := ihn rule inv e [] st hc hi h
        cases hr : parseD rules n rule inv e [] st <;> rw [hr] at h1 <;> first | trivial | exact h1
      | not e =>
        simp only [Calm] at hc
        simp only [parseD]
        have h1 := ihn rule (!inv) e [] st hc hi h
        cases hr : parseD rules n rule (!inv) e [] st <;> rw [hr] at h1 <;> first | trivial | exact back_okay h1 h
      | lit s =>
        simp only [parseD]
        have h1 := dLitLoop_okay rule s.toList st hi h
        cases hr : dLitLoop rule s.toList st with
        | mk b st' =>
          rw [hr] at h1
          cases b with
          | true => exact failAt_okay _ _ _ _ h1
          | false => exact restore_okay (failAt_okay _ _ _ _ h1)
      | cls a b =>
        simp only [parseD]
        cases hr : st.rest with
        | nil => exact failAt_okay _ _ _ _ h
        | cons r t =>
          simp only
          split
          · exact failAt_okay _ _ _ _ (read_okay rule hi (by rw [hr]; simp) h)
          · exact failAt_okay _ _ _ _ h
      | any =>
        simp only [parseD]
        cases hr : st.rest with
        | nil => exact failAt_okay _ _ _ _ h
        | cons r t => exact failAt_okay _ _ _ _ (read_okay rule hi (by rw [hr]; simp) h)
      | code run => simp only [Calm] at hc

end

end Verif.Peg
