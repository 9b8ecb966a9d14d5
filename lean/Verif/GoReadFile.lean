import Verif.GoReadBody
/-!
# The text of declarations and files is read back as the program of `Verif/Gen`
-/
namespace Verif.Go.Read
open Verif Verif.Ast Verif.Go
open Verif.GenText (lit itoa)

/-! ## Fields -/

/-- Fields, read and taken to `Verif/GoSyntax`. -/
def eFields (n : Nat) (ts : List Tok) : Option (List (String × GTy) × List Tok) :=
  (pFields n ts).bind fun p => (p.1.mapM fieldOf).map fun s => (s, p.2)

/-- The text is fields. -/
def ReadsF (t : GenText.Text) (fs : List (String × GTy)) : Prop :=
  ∃ ts, scan .start false t = (ts, .start, false) ∧ ∃ F k, ∀ n, F ≤ n → ∀ rest fs' rest', eFields n rest = some (fs', rest') →
    eFields (n + k) (ts ++ rest) = some (fs ++ fs', rest')

theorem ReadsF.nil : ReadsF [] [] := ⟨[], rfl, 0, 0, fun _ _ _ _ _ h => h⟩

theorem ReadsF.append {t t' : GenText.Text} {fs fs' : List (String × GTy)} (h : ReadsF t fs) (h' : ReadsF t' fs') :
    ReadsF (t ++ t') (fs ++ fs') := by
  obtain ⟨ts, hs, F, k, h⟩ := h
  obtain ⟨ts', hs', F', k', h'⟩ := h'
  refine ⟨ts ++ ts', scan_line hs hs', F + F', k' + k, fun n hn rest ss'' rest' hr => ?_⟩
  have h1 := h' n (by omega) rest _ _ hr
  have h2 := h (n + k') (by omega) _ _ _ h1
  rw [← Nat.add_assoc, List.append_assoc, List.append_assoc]
  exact h2

/-- One field on a line. -/
theorem ReadsF.line {t : GenText.Text} {x : String} {ts : List Tok} {ty : GTy} {gt : GType} {ps : List Piece}
    (hr : run none .start false ps = some (.id x :: (ts ++ [.op .semi]), .start, false)) (hps : ∀ p ∈ ps, p.OK) (ht : t = flat ps)
    (h : ∀ n rest, pType (n + 5) (ts ++ .op .semi :: rest) = some (gt, .op .semi :: rest)) (hty : tyOf gt = some ty) : ReadsF t [(x, ty)] := by
  refine ⟨.id x :: (ts ++ [.op .semi]), by rw [ht]; exact run_scan hps hr, 5, 1, fun n hn rest fs' rest' hr' => ?_⟩
  obtain ⟨m, rfl⟩ := Nat.exists_eq_add_of_le' hn
  simp only [eFields, Option.bind_eq_some_iff, Option.map_eq_some_iff, Prod.mk.injEq, Prod.exists] at hr'
  obtain ⟨gs, r, hp, ss', hs, rfl, rfl⟩ := hr'
  have h1 := h m rest
  have : .id x :: (ts ++ [.op .semi]) ++ rest = .id x :: (ts ++ .op .semi :: rest) := by simp
  rw [this, eFields, pFields]
  simp [h1, hp, List.mapM_cons, fieldOf, hty, hs]

theorem tt_type {t : GenText.Text} {ty : GTy} (h : TT t ty) :
    ∃ gt, tyOf gt = some ty ∧ ∀ n rest, pType (n + 3) (tyToks ty ++ .op .semi :: rest) = some (gt, .op .semi :: rest) := by
  cases h with
  | u8 => exact ⟨.name "uint8", rfl, fun n rest => rfl⟩
  | u16 => exact ⟨.name "uint16", rfl, fun n rest => rfl⟩
  | u32 => exact ⟨.name "uint32", rfl, fun n rest => rfl⟩
  | u64 => exact ⟨.name "uint64", rfl, fun n rest => rfl⟩
  | byte => exact ⟨.name "byte", rfl, fun n rest => rfl⟩
  | @ptr T _ => exact ⟨.ptr (.name T), rfl, fun n rest => rfl⟩

theorem field_text {g : Gen.Cfg} {f : Field} {d : String × GTy} (hg : CfgOK g) (hf : FieldOK g.nm f) (h : Gen.fieldDecl g f = .ok d) :
    ∃ t, GenText.fieldDecl g f = .ok t ∧ ReadsF t [d] := by
  simp only [Gen.fieldDecl] at h
  obtain ⟨ty, hty, h⟩ := bind_ok h
  simp only [Res.ok.injEq] at h
  subst h
  obtain ⟨hn, ht⟩ := hf
  cases hft : f.type with
  | base b =>
    rw [hft] at ht hty
    simp only [Gen.tipe, Res.ok.injEq] at hty
    subst hty
    obtain ⟨gt, h1, h2⟩ := tt_type (tipe_text ht)
    refine ⟨_, by simp only [GenText.fieldDecl, hft, GenText.tipe]; rfl, ?_⟩
    exact ReadsF.line (ps := [.lit (lit "\t"), word (g.nm f.name), .lit (lit " "), .sym true (GenText.tipeBase g b) (tyToks (Gen.tipeBase g b)), .lit (lit "\n")])
      (ts := tyToks (Gen.tipeBase g b)) (gt := gt) rfl
      (pieces_cons trivial (pieces_cons (word_ok hn) (pieces_cons trivial (pieces_cons (tt_ok (tipe_text ht)) (pieces_cons trivial pieces_nil)))))
      (by simp [flat]) (fun n rest => h2 (n + 2) rest) h1
  | ptr =>
    rw [hft] at hty
    simp only [Gen.tipe, Res.ok.injEq] at hty
    subst hty
    refine ⟨_, by simp only [GenText.fieldDecl, hft, GenText.tipe]; rfl, ?_⟩
    exact ReadsF.line (ps := [.lit (lit "\t"), word (g.nm f.name), .lit (lit " int\n")])
      (ts := [.id "int"]) (gt := .name "int") rfl
      (pieces_cons trivial (pieces_cons (word_ok hn) (pieces_cons trivial pieces_nil)))
      (by simp [flat, lit]) (fun n rest => rfl) rfl
  | nulterm =>
    rw [hft] at hty
    simp only [Gen.tipe, Res.ok.injEq] at hty
    subst hty
    refine ⟨_, by simp only [GenText.fieldDecl, hft, GenText.tipe]; rfl, ?_⟩
    exact ReadsF.line (ps := [.lit (lit "\t"), word (g.nm f.name), .lit (lit " string\n")])
      (ts := [.id "string"]) (gt := .name "string") rfl
      (pieces_cons trivial (pieces_cons (word_ok hn) (pieces_cons trivial pieces_nil)))
      (by simp [flat, lit]) (fun n rest => rfl) rfl
  | fixedArray b k =>
    rw [hft] at ht hty
    simp only [Gen.tipe] at hty
    obtain ⟨k', hk, hty⟩ := bind_ok hty
    simp only [Res.ok.injEq] at hty
    subst hty
    obtain ⟨n, rfl, hk'⟩ := integer_ok hg ht.2 hk
    obtain ⟨gt, h1, h2⟩ := tt_type (tipe_text ht.1)
    refine ⟨_, by simp only [GenText.fieldDecl, hft, GenText.tipe, hk']; rfl, ?_⟩
    exact ReadsF.line (ps := [.lit (lit "\t"), word (g.nm f.name), .lit (lit " ["), num n, .lit (lit "]"),
        .sym true (GenText.tipeBase g b) (tyToks (Gen.tipeBase g b)), .lit (lit "\n")])
      (ts := .op .lbrack :: .int n :: .op .rbrack :: tyToks (Gen.tipeBase g b)) (gt := .array n gt) rfl
      (pieces_cons trivial (pieces_cons (word_ok hn) (pieces_cons trivial (pieces_cons (num_ok n) (pieces_cons trivial
        (pieces_cons (tt_ok (tipe_text ht.1)) (pieces_cons trivial pieces_nil)))))))
      (by simp [flat, lit]) (fun n' rest => by
        have := h2 (n' + 1) rest
        simp only [List.cons_append, pType] at this ⊢
        simp [this]) (by simp [tyOf, h1])
  | varArray b c =>
    rw [hft] at ht hty
    simp only [Gen.tipe, Res.ok.injEq] at hty
    subst hty
    obtain ⟨gt, h1, h2⟩ := tt_type (tipe_text ht.1)
    refine ⟨_, by simp only [GenText.fieldDecl, hft, GenText.tipe]; rfl, ?_⟩
    exact ReadsF.line (ps := [.lit (lit "\t"), word (g.nm f.name), .lit (lit " []"),
        .sym true (GenText.tipeBase g b) (tyToks (Gen.tipeBase g b)), .lit (lit "\n")])
      (ts := .op .lbrack :: .op .rbrack :: tyToks (Gen.tipeBase g b)) (gt := .slice gt) rfl
      (pieces_cons trivial (pieces_cons (word_ok hn) (pieces_cons trivial
        (pieces_cons (tt_ok (tipe_text ht.1)) (pieces_cons trivial pieces_nil)))))
      (by simp [flat, lit]) (fun n' rest => by
        have := h2 (n' + 1) rest
        simp only [List.cons_append, pType] at this ⊢
        simp [this]) (by simp [tyOf, h1])

theorem leafDecls_text {g : Gen.Cfg} (hg : CfgOK g) : ∀ {ls : List Leaf} {fs : List (String × GTy)}, (∀ l ∈ ls, LeafOK g.nm l) →
    Gen.leafDecls g ls = .ok fs → ∃ t, GenText.leafDecls g ls = .ok t ∧ ReadsF t fs
  | [], fs, _, h => by
    simp only [Gen.leafDecls, Res.ok.injEq] at h
    subst h
    exact ⟨[], rfl, .nil⟩
  | .field f :: ls, fs, hl, h => by
    simp only [Gen.leafDecls] at h
    obtain ⟨d, hd, h⟩ := bind_ok h
    obtain ⟨ds, hds, h⟩ := bind_ok h
    simp only [Res.ok.injEq] at h
    subst h
    obtain ⟨t, ht, h1⟩ := field_text hg (hl _ (List.mem_cons_self ..)) hd
    obtain ⟨u, hu, h2⟩ := leafDecls_text hg (fun l' h' => hl l' (List.mem_cons_of_mem _ h')) hds
    exact ⟨_, by simp only [GenText.leafDecls, ht, hu]; rfl, h1.append h2⟩
  | .eos :: ls, fs, hl, h => leafDecls_text (ls := ls) hg (fun l' h' => hl l' (List.mem_cons_of_mem _ h')) h
  | .ignore :: ls, fs, hl, h => leafDecls_text (ls := ls) hg (fun l' h' => hl l' (List.mem_cons_of_mem _ h')) h
  | .fail :: ls, fs, hl, h => leafDecls_text (ls := ls) hg (fun l' h' => hl l' (List.mem_cons_of_mem _ h')) h

theorem caseDecls_text {g : Gen.Cfg} (hg : CfgOK g) : ∀ {cs : List UnionCase} {fs : List (String × GTy)},
    (∀ c ∈ cs, ∀ l ∈ c.members, LeafOK g.nm l) →
    Gen.caseDecls g cs = .ok fs → ∃ t, GenText.caseDecls g cs = .ok t ∧ ReadsF t fs
  | [], fs, _, h => by
    simp only [Gen.caseDecls, Res.ok.injEq] at h
    subst h
    exact ⟨[], rfl, .nil⟩
  | c :: cs, fs, hl, h => by
    simp only [Gen.caseDecls] at h
    obtain ⟨d, hd, h⟩ := bind_ok h
    obtain ⟨ds, hds, h⟩ := bind_ok h
    simp only [Res.ok.injEq] at h
    subst h
    obtain ⟨t, ht, h1⟩ := leafDecls_text hg (hl _ (List.mem_cons_self ..)) hd
    obtain ⟨u, hu, h2⟩ := caseDecls_text hg (fun l' h' => hl l' (List.mem_cons_of_mem _ h')) hds
    exact ⟨_, by simp only [GenText.caseDecls, ht, hu]; rfl, h1.append h2⟩

theorem memberDecl_text {g : Gen.Cfg} (hg : CfgOK g) {m : Member} {fs : List (String × GTy)} (hm : MemberOK g.nm m)
    (h : Gen.structMemberDecl g m = .ok fs) : ∃ t, GenText.structMemberDecl g m = .ok t ∧ ReadsF t fs := by
  cases m with
  | leaf l =>
    cases l with
    | field f =>
      simp only [Gen.structMemberDecl] at h
      obtain ⟨d, hd, h⟩ := bind_ok h
      simp only [Res.ok.injEq] at h
      subst h
      exact field_text hg hm hd
    | eos =>
      simp only [Gen.structMemberDecl, Res.ok.injEq] at h
      subst h
      exact ⟨[], rfl, .nil⟩
    | ignore => simp [Gen.structMemberDecl] at h
    | fail => simp [Gen.structMemberDecl] at h
  | union u => exact caseDecls_text hg (fun c hc => (hm.2.2 c hc).2) h

theorem memberDecls_text {g : Gen.Cfg} (hg : CfgOK g) : ∀ {ms : List Member} {fs : List (String × GTy)},
    (∀ m ∈ ms, MemberOK g.nm m) →
    Gen.memberDecls g ms = .ok fs → ∃ t, GenText.memberDecls g ms = .ok t ∧ ReadsF t fs
  | [], fs, _, h => by
    simp only [Gen.memberDecls, Res.ok.injEq] at h
    subst h
    exact ⟨[], rfl, .nil⟩
  | c :: cs, fs, hl, h => by
    simp only [Gen.memberDecls] at h
    obtain ⟨d, hd, h⟩ := bind_ok h
    obtain ⟨ds, hds, h⟩ := bind_ok h
    simp only [Res.ok.injEq] at h
    subst h
    obtain ⟨t, ht, h1⟩ := memberDecl_text hg (hl _ (List.mem_cons_self ..)) hd
    obtain ⟨u, hu, h2⟩ := memberDecls_text hg (fun l' h' => hl l' (List.mem_cons_of_mem _ h')) hds
    exact ⟨_, by simp only [GenText.memberDecls, ht, hu]; rfl, h1.append h2⟩

/-! ## Declarations -/

/-- Declarations, read and taken to `Verif/GoSyntax`. -/
def eDecls (n : Nat) (ts : List Tok) : Option Prog := (pDecls n ts).bind progOf

/-- The text is declarations. -/
def ReadsD (t : GenText.Text) (p : Prog) : Prop :=
  ∃ ts, scan .start false t = (ts, .start, false) ∧ ∃ F k, ∀ n, F ≤ n → ∀ rest q, eDecls n rest = some q →
    eDecls (n + k) (ts ++ rest) = some (Gen.append p q)

theorem append_assoc_prog (p q r : Prog) : Gen.append (Gen.append p q) r = Gen.append p (Gen.append q r) := by
  simp [Gen.append]

theorem ReadsD.nil : ReadsD [] ⟨[], [], []⟩ := ⟨[], rfl, 0, 0, fun _ _ _ q h => by simpa [Gen.append] using h⟩

theorem ReadsD.append {t t' : GenText.Text} {p p' : Prog} (h : ReadsD t p) (h' : ReadsD t' p') : ReadsD (t ++ t') (Gen.append p p') := by
  obtain ⟨ts, hs, F, k, h⟩ := h
  obtain ⟨ts', hs', F', k', h'⟩ := h'
  refine ⟨ts ++ ts', scan_line hs hs', F + F', k' + k, fun n hn rest q hr => ?_⟩
  have h1 := h' n (by omega) rest _ hr
  have h2 := h (n + k') (by omega) _ _ h1
  rw [← Nat.add_assoc, List.append_assoc, append_assoc_prog]
  exact h2

/-- A type. -/
theorem ReadsD.type {T : String} (hT : GoIdent T) {t : GenText.Text} {fs : List (String × GTy)} (h : ReadsF t fs) :
    ReadsD (lit "type " ++ lit T ++ lit " struct {\n" ++ t ++ lit "}\n\n") ⟨[⟨T, fs⟩], [], []⟩ := by
  obtain ⟨ts, hs, F, k, h⟩ := h
  refine ⟨[.kw .type, .id T, .kw .struct, .op .lbrace] ++ (ts ++ [.op .rbrace, .op .semi]), ?_, F + k + 1, 1, fun n hn rest q hr => ?_⟩
  · have := run_scan (ps := [.lit (lit "type "), word T, .lit (lit " struct {\n")]) (m := .start) (semi := false)
      (r := ([.kw .type, .id T, .kw .struct, .op .lbrace], .start, false))
      (pieces_cons trivial (pieces_cons (word_ok hT) (pieces_cons trivial pieces_nil))) rfl
    rw [List.append_assoc]
    exact scan_line (by simpa [flat] using this) (scan_line hs (by decide))
  · have h0 : eFields (n - k) (.op .rbrace :: .op .semi :: rest) = some ([], .op .rbrace :: .op .semi :: rest) := by
      obtain ⟨m, hm⟩ := Nat.exists_eq_add_of_le' (show 1 ≤ n - k by omega)
      rw [hm]; rfl
    have h1 := h _ (by omega) _ _ _ h0
    rw [show n - k + k = n by omega] at h1
    simp only [eFields, Option.bind_eq_some_iff, Option.map_eq_some_iff, Prod.mk.injEq, Prod.exists] at h1
    obtain ⟨gs, r, hp, fs', hs, he, rfl⟩ := h1
    rw [List.append_nil] at he
    subst he
    simp only [eDecls, Option.bind_eq_some_iff] at hr
    obtain ⟨ds, hd, hq⟩ := hr
    have : [.kw .type, .id T, .kw .struct, .op .lbrace] ++ (ts ++ [.op .rbrace, .op .semi]) ++ rest =
      .kw .type :: .id T :: .kw .struct :: .op .lbrace :: (ts ++ .op .rbrace :: .op .semi :: rest) := by simp
    rw [this, eDecls, pDecls, hp]
    simp [hd, progOf, declOf, hs, hq, Gen.append]

/-- Tokens of parameters after the first. -/
def sigToks (g : Gen.Cfg) : List String → List Tok
  | [] => []
  | n :: ns => .op .comma :: .id n :: .id (g.nm n) :: sigToks g ns

theorem sig_lex {g : Gen.Cfg} : ∀ {ns : List String}, (∀ n ∈ ns, GoIdent n ∧ GoIdent (g.nm n)) → ∀ {t : GenText.Text} {ts : List Tok}, Lexes true t ts →
    Lexes true (t ++ GenText.contextSignature g ns) (ts ++ sigToks g ns)
  | [], _, t, ts, h => by simpa [GenText.contextSignature, sigToks] using h
  | n :: ns, hn, t, ts, h => by
    have hn1 := hn n (List.mem_cons_self ..)
    have h1 := h.cat (l := lit ", ") (by decide) (show scan .start true (lit ", ") = ([.op .comma], .start, false) by decide) rfl
      (lex_ident hn1.1) (opens_ident hn1.1)
    have h3 := h1.cat (l := lit " ") (by decide) (show scan .start true (lit " ") = ([], .start, true) by decide) rfl
      (lex_ident hn1.2) (opens_ident hn1.2)
    have h2 := sig_lex (fun n hn' => hn n (List.mem_cons_of_mem _ hn')) h3
    simpa [GenText.contextSignature, sigToks, cut] using h2

theorem pParams_sig {g : Gen.Cfg} : ∀ (ns : List String) (x T : String) (n : Nat) (rest : List Tok),
    pParams (n + ns.length + 2) (.id x :: .id T :: (sigToks g ns ++ .op .rparen :: rest)) =
      some ((x, .name T) :: ns.map (fun n => (n, .name (g.nm n))), rest)
  | [], x, T, n, rest => rfl
  | y :: ns, x, T, n, rest => by
    rw [show n + (y :: ns).length + 2 = (n + ns.length + 2) + 1 by simp; omega, pParams]
    have h1 : pType (n + ns.length + 2) (.id T :: (sigToks g (y :: ns) ++ .op .rparen :: rest)) =
      some (.name T, .op .comma :: .id y :: .id (g.nm y) :: (sigToks g ns ++ .op .rparen :: rest)) := rfl
    rw [h1]
    simp only
    rw [pParams_sig ns]
    rfl

theorem pParams_data {g : Gen.Cfg} (ns : List String) (n : Nat) (rest : List Tok) :
    pParams (n + ns.length + 4) (.id "data" :: .op .lbrack :: .op .rbrack :: .id "byte" :: (sigToks g ns ++ .op .rparen :: rest)) =
      some (("data", .slice (.name "byte")) :: ns.map (fun n => (n, .name (g.nm n))), rest) := by
  cases ns with
  | nil => rfl
  | cons y ns =>
    rw [show n + (y :: ns).length + 4 = (n + 2 + ns.length + 2) + 1 by simp; omega, pParams]
    have h1 : pType (n + 2 + ns.length + 2) (.op .lbrack :: .op .rbrack :: .id "byte" :: (sigToks g (y :: ns) ++ .op .rparen :: rest)) =
      some (.slice (.name "byte"), .op .comma :: .id y :: .id (g.nm y) :: (sigToks g ns ++ .op .rparen :: rest)) := rfl
    rw [h1]
    simp only
    rw [pParams_sig ns]
    rfl

theorem params_of {g : Gen.Cfg} (ns : List String) :
    paramsOf (("data", .slice (.name "byte")) :: ns.map (fun n => (n, .name (g.nm n)))) = some (Gen.contextSignature g ns) := by
  simp only [paramsOf, Gen.contextSignature]
  rw [if_pos (by simp)]
  induction ns with
  | nil => rfl
  | cons n ns ih => simp only [List.map_cons, List.mapM_cons, ih]; rfl

theorem sig_ok {g : Gen.Cfg} {ns : List String} (hn : ∀ n ∈ ns, GoIdent n ∧ GoIdent (g.nm n)) :
    (Piece.sym true (lit "byte" ++ GenText.contextSignature g ns) (.id "byte" :: sigToks g ns)).OK :=
  ⟨sig_lex hn (lex_ident ident_byte), opens_append (opens_ident ident_byte)⟩

theorem Reads.body {t : GenText.Text} {ss : List Stmt} (h : Reads t ss) : ∃ ts, scan .start false t = (ts, .start, false) ∧
    ∃ F, ∀ n, F ≤ n → ∀ rest, ∃ gs, pBlock n (.op .lbrace :: (ts ++ .op .rbrace :: rest)) = some (gs, rest) ∧ stmtsOf gs = some ss := by
  obtain ⟨ts, hs, hp⟩ := h
  obtain ⟨F, hF⟩ := hp.block
  refine ⟨ts, hs, F, fun n hn rest => ?_⟩
  have h1 := hF n hn rest
  simp only [eBlock, Option.bind_eq_some_iff, Option.map_eq_some_iff, Prod.mk.injEq, Prod.exists] at h1
  obtain ⟨gs, r, hp, ss', hs', rfl, rfl⟩ := h1
  exact ⟨gs, hp, hs'⟩

/-- A method. -/
theorem ReadsD.method {g : Gen.Cfg} {v T : String} {ns : List String} (hv : GoIdent v) (hT : GoIdent T)
    (hn : ∀ n ∈ ns, GoIdent n ∧ GoIdent (g.nm n)) {t : GenText.Text} {ss : List Stmt} (h : Reads t ss) :
    ReadsD ((lit "func (" ++ lit v ++ lit " *" ++ lit T ++ lit ") Parse(data []byte" ++ GenText.contextSignature g ns ++
      lit ") ([]byte, error) {\n") ++ t ++ lit "}\n\n") ⟨[], [⟨T, v, Gen.contextSignature g ns, ss⟩], []⟩ := by
  obtain ⟨ts, hs, F, hF⟩ := h.body
  refine ⟨[.kw .func, .op .lparen, .id v, .op .star, .id T, .op .rparen, .id "Parse", .op .lparen, .id "data", .op .lbrack, .op .rbrack] ++
    ((.id "byte" :: sigToks g ns) ++ [.op .rparen, .op .lparen, .op .lbrack, .op .rbrack, .id "byte", .op .comma, .id "error", .op .rparen, .op .lbrace]) ++
    (ts ++ [.op .rbrace, .op .semi]), ?_, F + ns.length + 20, 1, fun n hn rest q hr => ?_⟩
  · have := run_scan (ps := [.lit (lit "func ("), word v, .lit (lit " *"), word T, .lit (lit ") Parse(data []"),
        .sym true (lit "byte" ++ GenText.contextSignature g ns) (.id "byte" :: sigToks g ns), .lit (lit ") ([]byte, error) {\n")]) (m := .start) (semi := false)
      (r := ([.kw .func, .op .lparen, .id v, .op .star, .id T, .op .rparen, .id "Parse", .op .lparen, .id "data", .op .lbrack, .op .rbrack] ++
        ((.id "byte" :: sigToks g ns) ++ [.op .rparen, .op .lparen, .op .lbrack, .op .rbrack, .id "byte", .op .comma, .id "error", .op .rparen, .op .lbrace]),
        .start, false))
      (pieces_cons trivial (pieces_cons (word_ok hv) (pieces_cons trivial (pieces_cons (word_ok hT) (pieces_cons trivial
        (pieces_cons (sig_ok hn) (pieces_cons trivial pieces_nil))))))) rfl
    rw [List.append_assoc]
    exact scan_line (by simpa [flat, lit] using this) (scan_line hs (by decide))
  · obtain ⟨m, rfl⟩ := Nat.exists_eq_add_of_le' hn
    obtain ⟨gs, hb, hgs⟩ := hF (m + (F + ns.length + 20)) (by omega) (.op .semi :: rest)
    simp only [eDecls, Option.bind_eq_some_iff] at hr
    obtain ⟨ds, hd, hq⟩ := hr
    have h1 := pParams_data (g := g) ns (m + F + 16) (.op .lparen :: .op .lbrack :: .op .rbrack :: .id "byte" :: .op .comma :: .id "error" :: .op .rparen ::
        .op .lbrace :: (ts ++ .op .rbrace :: .op .semi :: rest))
    rw [show m + F + 16 + ns.length + 4 = m + (F + ns.length + 20) by omega] at h1
    have h2 : pResults (m + (F + ns.length + 20)) (.op .lbrack :: .op .rbrack :: .id "byte" :: .op .comma :: .id "error" :: .op .rparen ::
        .op .lbrace :: (ts ++ .op .rbrace :: .op .semi :: rest)) =
        some ([.slice (.name "byte"), .name "error"], .op .lbrace :: (ts ++ .op .rbrace :: .op .semi :: rest)) := rfl
    have h3 : pSig (m + (F + ns.length + 20)) (.op .lparen :: .id "data" :: .op .lbrack :: .op .rbrack :: .id "byte" :: (sigToks g ns ++ .op .rparen ::
        .op .lparen :: .op .lbrack :: .op .rbrack :: .id "byte" :: .op .comma :: .id "error" :: .op .rparen ::
        .op .lbrace :: (ts ++ .op .rbrace :: .op .semi :: rest))) =
        some ((("data", .slice (.name "byte")) :: ns.map (fun n => (n, .name (g.nm n))), [.slice (.name "byte"), .name "error"], gs), .op .semi :: rest) := by
      rw [pSig, h1]
      simp only
      rw [h2]
      simp [hb]
    have h4 : pType (m + (F + ns.length + 20)) (.op .star :: .id T :: .op .rparen :: .id "Parse" :: .op .lparen :: .id "data" :: .op .lbrack :: .op .rbrack ::
        .id "byte" :: (sigToks g ns ++ .op .rparen ::
        .op .lparen :: .op .lbrack :: .op .rbrack :: .id "byte" :: .op .comma :: .id "error" :: .op .rparen ::
        .op .lbrace :: (ts ++ .op .rbrace :: .op .semi :: rest))) = some (.ptr (.name T), .op .rparen :: .id "Parse" :: .op .lparen :: .id "data" :: .op .lbrack :: .op .rbrack ::
        .id "byte" :: (sigToks g ns ++ .op .rparen ::
        .op .lparen :: .op .lbrack :: .op .rbrack :: .id "byte" :: .op .comma :: .id "error" :: .op .rparen ::
        .op .lbrace :: (ts ++ .op .rbrace :: .op .semi :: rest))) := rfl
    have : [.kw .func, .op .lparen, .id v, .op .star, .id T, .op .rparen, .id "Parse", .op .lparen, .id "data", .op .lbrack, .op .rbrack] ++
      ((.id "byte" :: sigToks g ns) ++ [.op .rparen, .op .lparen, .op .lbrack, .op .rbrack, .id "byte", .op .comma, .id "error", .op .rparen, .op .lbrace]) ++
      (ts ++ [.op .rbrace, .op .semi]) ++ rest =
      .kw .func :: .op .lparen :: .id v :: .op .star :: .id T :: .op .rparen :: .id "Parse" :: .op .lparen :: .id "data" :: .op .lbrack :: .op .rbrack ::
        .id "byte" :: (sigToks g ns ++ .op .rparen ::
        .op .lparen :: .op .lbrack :: .op .rbrack :: .id "byte" :: .op .comma :: .id "error" :: .op .rparen ::
        .op .lbrace :: (ts ++ .op .rbrace :: .op .semi :: rest)) := by simp
    rw [this, eDecls, pDecls, h4]
    simp only
    rw [h3]
    simp [hd, progOf, declOf, params_of, hgs, hq, Gen.append]

/-- A constructor. -/
theorem ReadsD.ctor {g : Gen.Cfg} {T : String} {ns : List String} (hP : GoIdent ("Parse" ++ T)) (hT : GoIdent T)
    (hn : ∀ n ∈ ns, GoIdent n ∧ GoIdent (g.nm n)) {t : GenText.Text} {ss : List Stmt} (h : Reads t ss) :
    ReadsD ((lit "func Parse" ++ lit T ++ lit "(data []byte" ++ GenText.contextSignature g ns ++ lit ") (*" ++ lit T ++ lit ", error) {\n") ++ t ++
      lit "}\n\n") ⟨[], [], [⟨T, Gen.contextSignature g ns, ss⟩]⟩ := by
  obtain ⟨ts, hs, F, hF⟩ := h.body
  refine ⟨[.kw .func, .id ("Parse" ++ T), .op .lparen, .id "data", .op .lbrack, .op .rbrack] ++
    ((.id "byte" :: sigToks g ns) ++ [.op .rparen, .op .lparen, .op .star, .id T, .op .comma, .id "error", .op .rparen, .op .lbrace]) ++
    (ts ++ [.op .rbrace, .op .semi]), ?_, F + ns.length + 20, 1, fun n hn rest q hr => ?_⟩
  · have := run_scan (ps := [.lit (lit "func "), word ("Parse" ++ T), .lit (lit "(data []"),
        .sym true (lit "byte" ++ GenText.contextSignature g ns) (.id "byte" :: sigToks g ns), .lit (lit ") (*"), word T, .lit (lit ", error) {\n")])
      (m := .start) (semi := false)
      (r := ([.kw .func, .id ("Parse" ++ T), .op .lparen, .id "data", .op .lbrack, .op .rbrack] ++
        ((.id "byte" :: sigToks g ns) ++ [.op .rparen, .op .lparen, .op .star, .id T, .op .comma, .id "error", .op .rparen, .op .lbrace]),
        .start, false))
      (pieces_cons trivial (pieces_cons (word_ok hP) (pieces_cons trivial (pieces_cons (sig_ok hn) (pieces_cons trivial
        (pieces_cons (word_ok hT) (pieces_cons trivial pieces_nil))))))) rfl
    rw [List.append_assoc]
    exact scan_line (by simpa [flat, lit] using this) (scan_line hs (by decide))
  · obtain ⟨m, rfl⟩ := Nat.exists_eq_add_of_le' hn
    obtain ⟨gs, hb, hgs⟩ := hF (m + (F + ns.length + 20)) (by omega) (.op .semi :: rest)
    simp only [eDecls, Option.bind_eq_some_iff] at hr
    obtain ⟨ds, hd, hq⟩ := hr
    have h1 := pParams_data (g := g) ns (m + F + 16) (.op .lparen :: .op .star :: .id T :: .op .comma :: .id "error" :: .op .rparen ::
        .op .lbrace :: (ts ++ .op .rbrace :: .op .semi :: rest))
    rw [show m + F + 16 + ns.length + 4 = m + (F + ns.length + 20) by omega] at h1
    have h2 : pResults (m + (F + ns.length + 20)) (.op .star :: .id T :: .op .comma :: .id "error" :: .op .rparen ::
        .op .lbrace :: (ts ++ .op .rbrace :: .op .semi :: rest)) =
        some ([.ptr (.name T), .name "error"], .op .lbrace :: (ts ++ .op .rbrace :: .op .semi :: rest)) := rfl
    have h3 : pSig (m + (F + ns.length + 20)) (.op .lparen :: .id "data" :: .op .lbrack :: .op .rbrack :: .id "byte" :: (sigToks g ns ++ .op .rparen ::
        .op .lparen :: .op .star :: .id T :: .op .comma :: .id "error" :: .op .rparen ::
        .op .lbrace :: (ts ++ .op .rbrace :: .op .semi :: rest))) =
        some ((("data", .slice (.name "byte")) :: ns.map (fun n => (n, .name (g.nm n))), [.ptr (.name T), .name "error"], gs), .op .semi :: rest) := by
      rw [pSig, h1]
      simp only
      rw [h2]
      simp [hb]
    have : [.kw .func, .id ("Parse" ++ T), .op .lparen, .id "data", .op .lbrack, .op .rbrack] ++
      ((.id "byte" :: sigToks g ns) ++ [.op .rparen, .op .lparen, .op .star, .id T, .op .comma, .id "error", .op .rparen, .op .lbrace]) ++
      (ts ++ [.op .rbrace, .op .semi]) ++ rest =
      .kw .func :: .id ("Parse" ++ T) :: .op .lparen :: .id "data" :: .op .lbrack :: .op .rbrack ::
        .id "byte" :: (sigToks g ns ++ .op .rparen ::
        .op .lparen :: .op .star :: .id T :: .op .comma :: .id "error" :: .op .rparen ::
        .op .lbrace :: (ts ++ .op .rbrace :: .op .semi :: rest)) := by simp
    rw [this, eDecls, pDecls, h3]
    simp [hd, progOf, declOf, params_of, hgs, hq, Gen.append]

/-! ## Files -/

theorem key_no_P : ∀ p ∈ keywords, p.1.head? ≠ some 'P' := by decide +kernel

theorem ident_ctor {T : String} (h : GoIdent T) : GoIdent ("Parse" ++ T) := by
  obtain ⟨⟨c, cs, hx, hc, hcs⟩, hk⟩ := h
  have he : ("Parse" ++ T).toList = 'P' :: 'a' :: 'r' :: 's' :: 'e' :: c :: cs := by simp [hx]
  refine ⟨⟨'P', _, he, by decide, ?_⟩, ?_⟩
  · intro d hd
    simp only [List.mem_cons] at hd
    rcases hd with rfl | rfl | rfl | rfl | rfl | hd
    · decide
    · decide
    · decide
    · decide
    · exact letter_word hc
    · exact hcs d hd
  · cases hl : keywords.lookup ("Parse" ++ T).toList with
    | none => rfl
    | some k =>
      have := key_no_P _ (lookup_mem hl)
      simp [he] at this

/-- What is printed for a struct can be read. -/
def StructOK (nm : String → String) (s : Struct) : Prop :=
  Syntax.IsIdent s.name ∧ GoIdent (nm s.name) ∧ (∀ c ∈ s.contexts, GoIdent c ∧ GoIdent (nm c)) ∧ ∀ m ∈ s.ms, MemberOK nm m

/-- What is printed for a context can be read. -/
def ContextOK (nm : String → String) (c : Context) : Prop := GoIdent (nm c.name) ∧ ∀ f ∈ c.members, FieldOK nm f

theorem key_long : ∀ p ∈ keywords, p.1.length ≠ 1 := by decide +kernel

theorem letter_lower {c : Char} (h : letter c = true) : letter c.toLower = true := by
  unfold Char.toLower
  split
  · rename_i hu
    simp only [letter, Bool.or_eq_true]
    left
    simp only [Char.isAlpha, Bool.or_eq_true]
    right
    simp only [Char.isLower, Bool.and_eq_true, decide_eq_true_eq]
    obtain ⟨h1, h2⟩ := hu
    simp only [ge_iff_le, UInt32.le_iff_toNat_le] at h1 h2 ⊢
    rw [UInt32.toNat_add]
    have e1 : 'A'.val.toNat = 65 := rfl
    have e2 : 'Z'.val.toNat = 90 := rfl
    have e3 : ('a'.val - 'A'.val).toNat = 32 := rfl
    have e4 : 'a'.val.toNat = 97 := rfl
    have e5 : 'z'.val.toNat = 122 := rfl
    omega
  · exact h

theorem receiver_ident {s : Struct} {recv : String} (hs : Syntax.IsIdent s.name) (h : Gen.receiver s = .ok recv) :
    GoIdent recv ∧ recv ≠ "nil" := by
  obtain ⟨c, cs, hx, hc, hcs⟩ := hs
  simp only [Gen.receiver, hx, Res.ok.injEq] at h
  subst h
  have hl : letter c = true := hc
  refine ⟨⟨⟨c.toLower, [], by simp, letter_lower hl, by simp⟩, ?_⟩, ?_⟩
  · cases hk : keywords.lookup (String.ofList [c.toLower]).toList with
    | none => rfl
    | some k =>
      have := key_long _ (lookup_mem hk)
      simp at this
  · intro he
    have := congrArg (fun s => s.toList.length) he
    simp at this

theorem struct_text {g : Gen.Cfg} {s : Struct} {p : Prog} (hg : CfgOK g) (hs : StructOK g.nm s) (h : Gen.structure_ g s = .ok p) :
    ∃ t, GenText.structure_ g s = .ok t ∧ ReadsD t p := by
  by_cases he : s.extern = true
  · simp only [Gen.structure_, he, if_true, Res.ok.injEq] at h
    subst h
    exact ⟨[], by simp [GenText.structure_, he], .nil⟩
  · simp only [Gen.structure_, he] at h
    obtain ⟨recv, hrecv, h⟩ := bind_ok h
    obtain ⟨d, hd, h⟩ := bind_ok h
    obtain ⟨m, hm, h⟩ := bind_ok h
    simp only [Res.ok.injEq] at h
    subst h
    obtain ⟨h1, h2, h3, h4⟩ := hs
    obtain ⟨hr, hnil⟩ := receiver_ident h1 hrecv
    simp only [Gen.structDecl] at hd
    obtain ⟨fs, hfs, hd⟩ := bind_ok hd
    simp only [Res.ok.injEq] at hd
    subst hd
    obtain ⟨t1, ht1, r1⟩ := memberDecls_text hg h4 hfs
    simp only [Gen.parse] at hm
    obtain ⟨ss, hss, hm⟩ := bind_ok hm
    simp only [Res.ok.injEq] at hm
    subst hm
    obtain ⟨t2, ht2, r2⟩ := members_text hg hr h4 hss
    have hD := ReadsD.type h2 r1
    have hM := ReadsD.method hr h2 h3 ((rd_cur.append r2).append rd_ret_cur)
    have hC := ReadsD.ctor (ident_ctor h2) h2 h3
      (((rd_new_recv hr h2).append (rd_define hr (fun n hn => (h3 n hn).1))).append (rd_err.append (rd_ret hr hnil)))
    refine ⟨_, by
      simp only [GenText.structure_, he, hrecv, GenText.structDecl, ht1, GenText.parse, Res.ok_bind, ht2]; rfl, ?_⟩
    have := (hD.append hM).append hC
    simpa [Gen.append, GenText.parseConstructor, Gen.parseConstructor, lit, LV.expr] using this

theorem context_text {g : Gen.Cfg} {c : Context} {d : TypeDecl} (hg : CfgOK g) (hc : ContextOK g.nm c) (h : Gen.context g c = .ok d) :
    ∃ t, GenText.context g c = .ok t ∧ ReadsD t ⟨[d], [], []⟩ := by
  simp only [Gen.context] at h
  obtain ⟨fs, hfs, h⟩ := bind_ok h
  simp only [Res.ok.injEq] at h
  subst h
  obtain ⟨t1, ht1, r1⟩ := leafDecls_text hg (ls := c.members.map .field) (by
    intro l hl
    obtain ⟨f, hf, rfl⟩ := List.mem_map.1 hl
    exact hc.2 f hf) hfs
  exact ⟨_, by simp only [GenText.context, ht1]; rfl, .type hc.1 r1⟩

theorem contexts_text {g : Gen.Cfg} (hg : CfgOK g) : ∀ {cs : List Context} {p : Prog}, (∀ c ∈ cs, ContextOK g.nm c) →
    Gen.fileContexts g cs = .ok p → ∃ t, GenText.fileContexts g cs = .ok t ∧ ReadsD t p
  | [], p, _, h => by
    simp only [Gen.fileContexts, Res.ok.injEq] at h
    subst h
    exact ⟨[], rfl, .nil⟩
  | c :: cs, p, hc, h => by
    simp only [Gen.fileContexts] at h
    obtain ⟨d, hd, h⟩ := bind_ok h
    obtain ⟨q, hq, h⟩ := bind_ok h
    simp only [Res.ok.injEq] at h
    subst h
    obtain ⟨t, ht, h1⟩ := context_text hg (hc c (List.mem_cons_self ..)) hd
    obtain ⟨u, hu, h2⟩ := contexts_text hg (fun c' h' => hc c' (List.mem_cons_of_mem _ h')) hq
    exact ⟨_, by simp only [GenText.fileContexts, ht, hu]; rfl, h1.append h2⟩

theorem structs_text {g : Gen.Cfg} (hg : CfgOK g) : ∀ {cs : List Struct} {p : Prog}, (∀ c ∈ cs, StructOK g.nm c) →
    Gen.fileStructs g cs = .ok p → ∃ t, GenText.fileStructs g cs = .ok t ∧ ReadsD t p
  | [], p, _, h => by
    simp only [Gen.fileStructs, Res.ok.injEq] at h
    subst h
    exact ⟨[], rfl, .nil⟩
  | c :: cs, p, hc, h => by
    simp only [Gen.fileStructs] at h
    obtain ⟨d, hd, h⟩ := bind_ok h
    obtain ⟨q, hq, h⟩ := bind_ok h
    simp only [Res.ok.injEq] at h
    subst h
    obtain ⟨t, ht, h1⟩ := struct_text hg (hc c (List.mem_cons_self ..)) hd
    obtain ⟨u, hu, h2⟩ := structs_text hg (fun c' h' => hc c' (List.mem_cons_of_mem _ h')) hq
    exact ⟨_, by simp only [GenText.fileStructs, ht, hu]; rfl, h1.append h2⟩

theorem files_text {g : Gen.Cfg} (hg : CfgOK g) : ∀ {fs : List File} {p : Prog},
    (∀ f ∈ fs, (∀ c ∈ f.contexts, ContextOK g.nm c) ∧ ∀ s ∈ f.structs, StructOK g.nm s) →
    Gen.fileList g fs = .ok p → ∃ t, GenText.fileList g fs = .ok t ∧ ReadsD t p
  | [], p, _, h => by
    simp only [Gen.fileList, Res.ok.injEq] at h
    subst h
    exact ⟨[], rfl, .nil⟩
  | f :: fs, p, hf, h => by
    simp only [Gen.fileList, Gen.file] at h
    obtain ⟨d, hd, h⟩ := bind_ok h
    obtain ⟨q, hq, h⟩ := bind_ok h
    obtain ⟨d1, hd1, hd⟩ := bind_ok hd
    obtain ⟨d2, hd2, hd⟩ := bind_ok hd
    simp only [Res.ok.injEq] at h hd
    subst hd
    subst h
    obtain ⟨hf1, hf2⟩ := hf f (List.mem_cons_self ..)
    obtain ⟨t1, ht1, h1⟩ := contexts_text hg hf1 hd1
    obtain ⟨t2, ht2, h2⟩ := structs_text hg hf2 hd2
    obtain ⟨u, hu, h3⟩ := files_text hg (fun c' h' => hf c' (List.mem_cons_of_mem _ h')) hq
    exact ⟨_, by simp only [GenText.fileList, GenText.file, ht1, ht2, hu]; rfl, (h1.append h2).append h3⟩

/-- The header and the declarations. -/
theorem file_reads {pkg : String} {t : GenText.Text} {p : Prog} (hp : GoIdent pkg) (h : ReadsD t p) :
    ∃ F, ∀ n, F ≤ n → readGo n (GenText.header pkg ++ t) = some (pkg, p) := by
  obtain ⟨ts, hs, F, k, h⟩ := h
  refine ⟨F + k + 1, fun n hn => ?_⟩
  have h1 : scan .start false (GenText.header pkg) = ([.kw .package, .id pkg, .op .semi], .start, false) := by
    have := run_scan (ps := [.lit (lit "package "), word pkg, .lit (lit "\n\n")]) (m := .start) (semi := false)
      (r := ([.kw .package, .id pkg, .op .semi], .start, false))
      (pieces_cons trivial (pieces_cons (word_ok hp) (pieces_cons trivial pieces_nil))) rfl
    exact scan_line (ts := []) (by decide +kernel) (by simpa [flat, lit] using this)
  have h2 := scan_line h1 hs
  have h0 : eDecls (n - k) [] = some ⟨[], [], []⟩ := by
    obtain ⟨m, hm⟩ := Nat.exists_eq_add_of_le' (show 1 ≤ n - k by omega)
    rw [hm]; rfl
  have h3 := h _ (by omega) _ _ h0
  rw [show n - k + k = n by omega, List.append_nil] at h3
  simp only [eDecls, Option.bind_eq_some_iff] at h3
  obtain ⟨ds, hd, hq⟩ := h3
  have h4 : Gen.append p ⟨[], [], []⟩ = p := by simp [Gen.append]
  rw [h4] at hq
  have h5 : tokens (GenText.header pkg ++ t) = some (.kw .package :: .id pkg :: .op .semi :: ts) := by
    simp [tokens, h2, cut]
  simp [readGo, h5, pFile, hd, hq]

end Verif.Go.Read
