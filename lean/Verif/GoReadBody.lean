import Verif.GoReadHead
/-!
# The text of `Parse` bodies is read back as the statements of `Verif/Gen`
-/
namespace Verif.Go.Read
open Verif Verif.Ast Verif.Go
open Verif.GenText (lit itoa)

/-- What the two models of a function print. -/
def Both (x : Res GenText.Text) (ss : List Stmt) : Prop := ∃ t, x = .ok t ∧ Reads t ss

theorem two {t u : GenText.Text} {s s' : Stmt} {ss : List Stmt} (h : Reads t [s]) (h' : Reads u (s' :: ss)) : Reads (t ++ u) (s :: s' :: ss) :=
  h.append h'

theorem check_text {g : Gen.Cfg} {l : LV} {t : IntType} {ss : List Stmt} (hg : CfgOK g) (hl : LVGood l)
    (ht : ∀ il, t.constraint = some il → ListOK il) (h : Gen.intCheck g l t = .ok ss) : Both (GenText.intCheck g (lvText l) t) ss := by
  cases hc : t.constraint with
  | none =>
    simp only [Gen.intCheck, hc, Res.ok.injEq] at h
    subst h
    exact ⟨[], by simp [GenText.intCheck, hc], .nil⟩
  | some il =>
    simp only [Gen.intCheck, hc] at h
    obtain ⟨e, he, h⟩ := bind_ok h
    simp only [Res.ok.injEq] at h
    subst h
    obtain ⟨c, ts, h1, h2, h3, h4⟩ := conditional_text hg hl (ht il hc) he
    exact ⟨_, by simp only [GenText.intCheck, hc, h1]; rfl, rd_if h2 h3 h4 rd_violated⟩

theorem read_text {l : LV} {t : IntType} (hl : LVGood l) (ht : Syntax.GoodSize t.size) :
    Reads (GenText.intRead (lvText l) t) [Gen.intRead l t] := by
  rcases ht with h | h | h | h <;> simp only [GenText.intRead, Gen.intRead, h]
  · exact rd_byte hl
  · simpa [lit, itoa, Nat.toDigits, Nat.toDigitsCore, Nat.digitChar] using rd_uint16 hl
  · simpa [lit, itoa, Nat.toDigits, Nat.toDigitsCore, Nat.digitChar] using rd_uint32 hl
  · simpa [lit, itoa, Nat.toDigits, Nat.toDigitsCore, Nat.digitChar] using rd_uint64 hl

theorem int_text {g : Gen.Cfg} {l : LV} {t : IntType} {ss : List Stmt} (hg : CfgOK g) (hl : LVGood l)
    (ht : Syntax.GoodSize t.size ∧ ∀ il, t.constraint = some il → ListOK il) (h : Gen.parseIntType g l t = .ok ss) :
    Both (GenText.parseIntType g (lvText l) t) ss := by
  simp only [Gen.parseIntType] at h
  obtain ⟨cs, hcs, h⟩ := bind_ok h
  simp only [Res.ok.injEq] at h
  subst h
  obtain ⟨c, hc, hr⟩ := check_text hg hl ht.2 hcs
  refine ⟨_, by simp only [GenText.parseIntType, hc]; rfl, ?_⟩
  exact ((((rd_check_num _).append (read_text hl ht.1)).append hr).append (rd_advance _))

theorem base_text {g : Gen.Cfg} {l : LV} {b : Base} {ss : List Stmt} (hg : CfgOK g) (hl : LVGood l)
    (hb : BaseOK g.nm b) (h : Gen.parseBase g l b = .ok ss) : Both (GenText.parseBase g (lvText l) b) ss := by
  cases b with
  | int t => exact int_text hg hl hb h
  | char => exact int_text hg hl ⟨.inl rfl, by simp [U8]⟩ h
  | struct n =>
    cases hs : g.res.struct n with
    | none => simp [Gen.parseBase, hs] at h
    | some s =>
      simp only [Gen.parseBase, hs, Res.ok.injEq] at h
      subst h
      refine ⟨_, by simp only [GenText.parseBase, hs]; rfl, ?_⟩
      exact ((rd_var_err.append (rd_new hl hb)).append (rd_call hl (hg.2 n s hs))).append rd_err

/-- The receiver or context, and the field, of a reference. -/
theorem ref_text {g : Gen.Cfg} {recv : String} {r : IDRef} (hr : GoIdent recv) (h : RefOK g.nm r) :
    ∃ x f, GoIdent x ∧ GoIdent f ∧ GenText.ref g recv r = lvText (.field x f) ∧ Gen.ref g recv r = (LV.field x f).expr := by
  by_cases hs : r.scope = ""
  · exact ⟨recv, _, hr, h.2, by simp [GenText.ref, hs, lvText], by simp [Gen.ref, hs, LV.expr]⟩
  · exact ⟨r.scope, _, h.1.resolve_left hs, h.2, by simp [GenText.ref, hs, lvText], by simp [Gen.ref, hs, LV.expr]⟩

theorem constrained_text {g : Gen.Cfg} {recv : String} {c : LengthConstraint} {body : Res (List Stmt)} {body' : Res GenText.Text}
    {ss : List Stmt} (hg : CfgOK g) (hr : GoIdent recv) (hc : LenOK g.nm c) (hb : ∀ ss, body = .ok ss → Both body' ss)
    (h : Gen.constrained g recv c body = .ok ss) : Both (GenText.constrained g recv c body') ss := by
  simp only [Gen.constrained] at h
  obtain ⟨e, he, h⟩ := bind_ok h
  obtain ⟨b, hb', h⟩ := bind_ok h
  simp only [Res.ok.injEq] at h
  subst h
  obtain ⟨t, ht, hs⟩ := hb b hb'
  cases c with
  | leftover k =>
    simp only [Gen.extent] at he
    obtain ⟨k', hk, he⟩ := bind_ok he
    simp only [Res.ok.injEq] at he
    subst he
    obtain ⟨n, rfl, hn⟩ := integer_ok hg hc hk
    refine ⟨_, by simp only [GenText.constrained, GenText.extent, hn, ht]; rfl, ?_⟩
    have := (((((rd_check_num n).append (rd_save_num n)).append (rd_limit_num n)).append hs).append rd_end).append rd_restore
    simpa [GenText.lengthCheck, lit] using this
  | idRef r =>
    obtain ⟨x, f, hx, hf, h1, h2⟩ := ref_text hr hc
    simp only [Gen.extent, Res.ok.injEq] at he
    subst he
    refine ⟨_, by simp only [GenText.constrained, GenText.extent, h1, ht]; rfl, ?_⟩
    have := (((((rd_check_ref hx hf).append (rd_save_ref hx hf)).append (rd_limit_ref hx hf)).append hs).append rd_end).append rd_restore
    simpa [GenText.lengthCheck, lit, lvText, h2, LV.expr] using this

theorem elem_text {x f : String} : lvText (.field x f) ++ lit "[idx]" = lvText (Gen.elemLV (.field x f)) := by
  simp [lvText, Gen.elemLV, lit]

theorem fixed_text {g : Gen.Cfg} {x f : String} {b : Base} {k : Integer} {ss : List Stmt} (hg : CfgOK g) (hx : GoIdent x) (hf : GoIdent f)
    (hb : BaseOK g.nm b) (hk : IntOK k) (h : Gen.parseFixed g (.field x f) b k = .ok ss) :
    Both (GenText.parseFixed g (lvText (.field x f)) b k) ss := by
  simp only [Gen.parseFixed] at h
  obtain ⟨k', hk', h⟩ := bind_ok h
  obtain ⟨bs, hbs, h⟩ := bind_ok h
  simp only [Res.ok.injEq] at h
  subst h
  obtain ⟨n, rfl, hn⟩ := integer_ok hg hk hk'
  obtain ⟨t, ht, hr⟩ := base_text hg (show LVGood (Gen.elemLV (.field x f)) from ⟨hx, hf, ident_idx⟩) hb hbs
  exact ⟨_, by simp only [GenText.parseFixed, hn, elem_text, ht]; rfl, rd_for (.num n) hr⟩

theorem rem_text {g : Gen.Cfg} {l : LV} {b : Base} {ss : List Stmt} (hg : CfgOK g) (hl : LVGood l)
    (hb : BaseOK g.nm b) (h : Gen.parseRem g l b = .ok ss) : Both (GenText.parseRem g (lvText l) b) ss := by
  simp only [Gen.parseRem] at h
  obtain ⟨bs, hbs, h⟩ := bind_ok h
  simp only [Res.ok.injEq] at h
  subst h
  obtain ⟨t, ht, hr⟩ := base_text hg (show LVGood (.var "tmp") from ident_tmp) hb hbs
  refine ⟨_, by simp only [GenText.parseRem]; rw [show lit "tmp" = lvText (.var "tmp") from rfl, ht]; rfl, ?_⟩
  have := (rd_make0 hl (tipe_text hb)).append (rd_while (((rd_tmp (tipe_text hb)).append hr).append (rd_append hl)))
  simpa [lit] using this

theorem var_text {g : Gen.Cfg} {recv x f : String} {b : Base} {c : Option LengthConstraint} {ss : List Stmt} (hg : CfgOK g)
    (hr : GoIdent recv) (hx : GoIdent x) (hf : GoIdent f) (hb : BaseOK g.nm b) (hc : ∀ l, c = some l → LenOK g.nm l)
    (h : Gen.parseVar g recv (.field x f) b c = .ok ss) : Both (GenText.parseVar g recv (lvText (.field x f)) b c) ss := by
  cases c with
  | none => exact rem_text hg ⟨hx, hf⟩ hb h
  | some c =>
    cases c with
    | leftover k => exact constrained_text hg hr (hc _ rfl) (fun ss h => rem_text hg ⟨hx, hf⟩ hb h) h
    | idRef r =>
      simp only [Gen.parseVar] at h
      obtain ⟨bs, hbs, h⟩ := bind_ok h
      simp only [Res.ok.injEq] at h
      subst h
      obtain ⟨x', f', hx', hf', h1, h2⟩ := ref_text hr (hc _ rfl)
      obtain ⟨t, ht, hr⟩ := base_text hg (show LVGood (Gen.elemLV (.field x f)) from ⟨hx, hf, ident_idx⟩) hb hbs
      refine ⟨_, by simp only [GenText.parseVar, elem_text, ht, h1]; rfl, ?_⟩
      have := (rd_makeN (l := .field x f) ⟨hx, hf⟩ (tipe_text hb) hx' hf').append (rd_for (.ref hx' hf') hr)
      simpa [lit, lvText, h2, LV.expr] using this

theorem type_text {g : Gen.Cfg} {recv x f : String} {ty : Ty} {ss : List Stmt} (hg : CfgOK g)
    (hr : GoIdent recv) (hx : GoIdent x) (hf : GoIdent f) (ht : TyOK g.nm ty)
    (h : Gen.parseType g recv (.field x f) ty = .ok ss) : Both (GenText.parseType g recv (lvText (.field x f)) ty) ss := by
  cases ty with
  | base b => exact base_text hg ⟨hx, hf⟩ ht h
  | ptr =>
    simp only [Gen.parseType, Res.ok.injEq] at h
    subst h
    exact ⟨_, rfl, rd_pos ⟨hx, hf⟩⟩
  | nulterm =>
    simp only [Gen.parseType, Res.ok.injEq] at h
    subst h
    exact ⟨_, rfl, (rd_index.append rd_nul).append (rd_string ⟨hx, hf⟩)⟩
  | fixedArray b k => exact fixed_text hg hx hf ht.1 ht.2 h
  | varArray b c => exact var_text hg hr hx hf ht.1 ht.2 h

theorem leaf_text {g : Gen.Cfg} {recv : String} {l : Leaf} {s : Stmt} (hg : CfgOK g)
    (hr : GoIdent recv) (hl : LeafOK g.nm l) (h : Gen.parseLeaf g recv l = .ok s) : Both (GenText.parseLeaf g recv l) [s] := by
  cases l with
  | field f =>
    simp only [Gen.parseLeaf] at h
    obtain ⟨ss, hss, h⟩ := bind_ok h
    simp only [Res.ok.injEq] at h
    subst h
    obtain ⟨t, ht, hs⟩ := type_text hg hr hr hl.1 hl.2 hss
    exact ⟨_, by simp only [GenText.parseLeaf]; rw [show lit recv ++ lit "." ++ lit (g.nm f.name) = lvText (.field recv (g.nm f.name)) from rfl, ht]; rfl,
      hs.block⟩
  | eos =>
    simp only [Gen.parseLeaf, Res.ok.injEq] at h
    subst h
    exact ⟨_, rfl, rd_end.block⟩
  | ignore =>
    simp only [Gen.parseLeaf, Res.ok.injEq] at h
    subst h
    exact ⟨_, rfl, rd_ignore.block⟩
  | fail =>
    simp only [Gen.parseLeaf, Res.ok.injEq] at h
    subst h
    exact ⟨_, rfl, rd_fail⟩

theorem leaves_text {g : Gen.Cfg} {recv : String} (hg : CfgOK g) (hr : GoIdent recv) : ∀ {ls : List Leaf} {ss : List Stmt},
    (∀ l ∈ ls, LeafOK g.nm l) → Gen.parseLeaves g recv ls = .ok ss → Both (GenText.parseLeaves g recv ls) ss
  | [], ss, _, h => by
    simp only [Gen.parseLeaves, Res.ok.injEq] at h
    subst h
    exact ⟨[], rfl, .nil⟩
  | l :: ls, ss, hl, h => by
    simp only [Gen.parseLeaves] at h
    obtain ⟨s, hs, h⟩ := bind_ok h
    obtain ⟨ss', hss, h⟩ := bind_ok h
    simp only [Res.ok.injEq] at h
    subst h
    obtain ⟨t, ht, h1⟩ := leaf_text hg hr (hl l (List.mem_cons_self ..)) hs
    obtain ⟨u, hu, h2⟩ := leaves_text hg hr (fun l' h' => hl l' (List.mem_cons_of_mem _ h')) hss
    exact ⟨_, by simp only [GenText.parseLeaves, ht, hu]; rfl, h1.append h2⟩

theorem cases_text {g : Gen.Cfg} {recv : String} {tag : LV} (hg : CfgOK g) (hr : GoIdent recv) (htag : LVGood tag) :
    ∀ {us : List UnionCase} {cs : List (Option Expr × List Stmt)},
    (∀ c ∈ us, (∀ l, c.case = some l → ListOK l) ∧ ∀ l ∈ c.members, LeafOK g.nm l) → Gen.parseCases g recv tag.expr us = .ok cs →
    ∃ t, GenText.parseCases g recv (lvText tag) us = .ok t ∧ ReadsC t cs
  | [], cs, _, h => by
    simp only [Gen.parseCases, Res.ok.injEq] at h
    subst h
    exact ⟨[], rfl, .nil⟩
  | c :: us, cs, hc, h => by
    simp only [Gen.parseCases] at h
    obtain ⟨e, he, h⟩ := bind_ok h
    obtain ⟨ss, hss, h⟩ := bind_ok h
    obtain ⟨cs', hcs, h⟩ := bind_ok h
    simp only [Res.ok.injEq] at h
    subst h
    obtain ⟨hc1, hc2⟩ := hc c (List.mem_cons_self ..)
    obtain ⟨t, ht, h1⟩ := leaves_text hg hr hc2 hss
    obtain ⟨u, hu, h2⟩ := cases_text hg hr htag (fun l' h' => hc l' (List.mem_cons_of_mem _ h')) hcs
    cases hcase : c.case with
    | none =>
      simp only [Gen.caseHead, hcase, Res.ok.injEq] at he
      subst he
      exact ⟨_, by simp only [GenText.parseCases, GenText.caseHead, hcase, ht, hu]; rfl, .default h1 h2⟩
    | some il =>
      simp only [Gen.caseHead, hcase] at he
      obtain ⟨e', he', he⟩ := bind_ok he
      simp only [Res.ok.injEq] at he
      subst he
      obtain ⟨w, ts, h3, h4, h5, h6⟩ := conditional_text hg htag (hc1 il hcase) he'
      exact ⟨_, by simp only [GenText.parseCases, GenText.caseHead, hcase, ht, hu, h3]; rfl, .case h4 h5 h6 h1 h2⟩

theorem switch_text {g : Gen.Cfg} {recv : String} {u : UnionMember} {ss : List Stmt} (hg : CfgOK g) (hr : GoIdent recv)
    (hu : UnionOK g.nm u) (h : Gen.parseSwitch g recv u = .ok ss) : Both (GenText.parseSwitch g recv u) ss := by
  simp only [Gen.parseSwitch] at h
  obtain ⟨cs, hcs, h⟩ := bind_ok h
  simp only [Res.ok.injEq] at h
  subst h
  obtain ⟨x, f, hx, hf, h1, h2⟩ := ref_text hr hu.1
  rw [h2] at hcs
  obtain ⟨t, ht, hr⟩ := cases_text hg hr (show LVGood (.field x f) from ⟨hx, hf⟩) hu.2.2 hcs
  exact ⟨_, by simp only [GenText.parseSwitch, h1, ht]; rfl, rd_switch hr⟩

theorem union_text {g : Gen.Cfg} {recv : String} {u : UnionMember} {ss : List Stmt} (hg : CfgOK g) (hr : GoIdent recv)
    (hu : UnionOK g.nm u) (h : Gen.parseUnion g recv u = .ok ss) : Both (GenText.parseUnion g recv u) ss := by
  cases hl : u.length with
  | none =>
    simp only [Gen.parseUnion, hl] at h
    simp only [GenText.parseUnion, hl]
    exact switch_text hg hr hu h
  | some c =>
    simp only [Gen.parseUnion, hl] at h
    simp only [GenText.parseUnion, hl]
    exact constrained_text hg hr (hu.2.1 c hl) (fun ss h => switch_text hg hr hu h) h

theorem member_text {g : Gen.Cfg} {recv : String} {m : Member} {s : Stmt} (hg : CfgOK g)
    (hr : GoIdent recv) (hm : MemberOK g.nm m) (h : Gen.parseMember g recv m = .ok s) : Both (GenText.parseMember g recv m) [s] := by
  cases m with
  | leaf l => exact leaf_text hg hr hm h
  | union u =>
    simp only [Gen.parseMember] at h
    obtain ⟨ss, hss, h⟩ := bind_ok h
    simp only [Res.ok.injEq] at h
    subst h
    obtain ⟨t, ht, hs⟩ := union_text hg hr hm hss
    exact ⟨_, by simp only [GenText.parseMember, ht]; rfl, hs.block⟩

theorem members_text {g : Gen.Cfg} {recv : String} (hg : CfgOK g) (hr : GoIdent recv) : ∀ {ms : List Member} {ss : List Stmt},
    (∀ m ∈ ms, MemberOK g.nm m) → Gen.parseMembers g recv ms = .ok ss → Both (GenText.parseMembers g recv ms) ss
  | [], ss, _, h => by
    simp only [Gen.parseMembers, Res.ok.injEq] at h
    subst h
    exact ⟨[], rfl, .nil⟩
  | m :: ms, ss, hm, h => by
    simp only [Gen.parseMembers] at h
    obtain ⟨s, hs, h⟩ := bind_ok h
    obtain ⟨ss', hss, h⟩ := bind_ok h
    simp only [Res.ok.injEq] at h
    subst h
    obtain ⟨t, ht, h1⟩ := member_text hg hr (hm m (List.mem_cons_self ..)) hs
    obtain ⟨u, hu, h2⟩ := members_text hg hr (fun l' h' => hm l' (List.mem_cons_of_mem _ h')) hss
    exact ⟨_, by simp only [GenText.parseMembers, ht, hu]; rfl, h1.append h2⟩

end Verif.Go.Read
