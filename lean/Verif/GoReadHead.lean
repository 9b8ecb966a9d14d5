import Verif.GoReadLine
/-!
# Lines with lists of arguments, heads of blocks and clauses are read back
-/
namespace Verif.Go.Read
open Verif Verif.Ast Verif.Go
open Verif.GenText (lit itoa)

/-! ## Arguments -/

/-- Tokens of arguments after the first. -/
def argToks : List String → List Tok
  | [] => []
  | n :: ns => .op .comma :: .id n :: argToks ns

theorem args_lex : ∀ {ns : List String}, (∀ n ∈ ns, GoIdent n) → ∀ {t : GenText.Text} {ts : List Tok}, Lexes true t ts →
    Lexes true (t ++ GenText.contextArgs ns) (ts ++ argToks ns)
  | [], _, t, ts, h => by simpa [GenText.contextArgs, argToks] using h
  | n :: ns, hn, t, ts, h => by
    have h1 := h.cat (l := lit ", ") (by decide) (show scan .start true (lit ", ") = ([.op .comma], .start, false) by decide) rfl
      (lex_ident (hn n (List.mem_cons_self ..))) (opens_ident (hn n (List.mem_cons_self ..)))
    have h2 := args_lex (fun n hn' => hn n (List.mem_cons_of_mem _ hn')) h1
    simpa [GenText.contextArgs, argToks, cut] using h2

theorem pList_args : ∀ (ns : List String) (x : String) (n : Nat) (rest : List Tok),
    pList (n + ns.length + 6) (.id x :: (argToks ns ++ .op .rparen :: rest)) = some (.id x :: ns.map .id, .op .rparen :: rest)
  | [], x, n, rest => rfl
  | y :: ns, x, n, rest => by
    have hn : n + (y :: ns).length + 6 = (n + ns.length + 6) + 1 := by simp; omega
    have hb : pBin (n + ns.length + 6) 1 (.id x :: (argToks (y :: ns) ++ .op .rparen :: rest)) =
        some (.id x, .op .comma :: .id y :: (argToks ns ++ .op .rparen :: rest)) := rfl
    rw [hn, pList, hb]
    simp only
    rw [pList_args ns y n rest]
    rfl

theorem names_args (ns : List String) : (ns.map GExpr.id).mapM nameOf = some ns := by
  induction ns with
  | nil => rfl
  | cons n ns ih => simp [List.mapM_cons, nameOf, ih]

theorem post_parse (ns : List String) (x : GExpr) (d : String) (n : Nat) (rest : List Tok) :
    postLoop (n + ns.length + 8) x (.op .dot :: .id "Parse" :: .op .lparen :: .id d :: (argToks ns ++ .op .rparen :: .op .semi :: rest)) =
      some (.call (.sel x "Parse") (.id d :: ns.map .id), .op .semi :: rest) := by
  have h1 : postLoop (n + ns.length + 8) x (.op .dot :: .id "Parse" :: .op .lparen :: .id d :: (argToks ns ++ .op .rparen :: .op .semi :: rest)) =
      match pList (n + ns.length + 6) (.id d :: (argToks ns ++ .op .rparen :: .op .semi :: rest)) with
      | some (as, .op .rparen :: r) => postLoop (n + ns.length + 6) (.call (.sel x "Parse") as) r
      | _ => none := rfl
  rw [h1, pList_args]
  rfl

theorem pList_parse (l : LV) (ns : List String) (d : String) (n : Nat) (rest : List Tok) :
    pList (n + ns.length + 20) (lvToks l ++ .op .dot :: .id "Parse" :: .op .lparen :: .id d :: (argToks ns ++ .op .rparen :: .op .semi :: rest)) =
      some ([.call (.sel (lvG l) "Parse") (.id d :: ns.map .id)], .op .semi :: rest) := by
  have key : ∀ k x, pUnary (n + ns.length + 18)
      (lvToks l ++ .op .dot :: .id "Parse" :: .op .lparen :: .id d :: (argToks ns ++ .op .rparen :: .op .semi :: rest)) = 
        postLoop (k + ns.length + 8) x (.op .dot :: .id "Parse" :: .op .lparen :: .id d :: (argToks ns ++ .op .rparen :: .op .semi :: rest)) →
      x = lvG l → pList (n + ns.length + 20) (lvToks l ++ .op .dot :: .id "Parse" :: .op .lparen :: .id d :: (argToks ns ++ .op .rparen :: .op .semi :: rest)) =
      some ([.call (.sel (lvG l) "Parse") (.id d :: ns.map .id)], .op .semi :: rest) := by
    intro k x h hx
    rw [post_parse, hx] at h
    rw [show n + ns.length + 20 = (n + ns.length + 18) + 1 + 1 by omega, pList, pBin, h]
    rfl
  cases l with
  | var x =>
    refine key (n + 9) (.id x) ?_ rfl
    rw [show n + 9 + ns.length + 8 = n + ns.length + 17 by omega]; rfl
  | field x f =>
    refine key (n + 8) (.sel (.id x) f) ?_ rfl
    rw [show n + 8 + ns.length + 8 = n + ns.length + 16 by omega]; rfl
  | index x f i =>
    refine key (n + 7) (.index (.sel (.id x) f) (.id i)) ?_ rfl
    rw [show n + 7 + ns.length + 8 = n + ns.length + 15 by omega]; rfl

theorem lvOf_lvG (l : LV) : lvOf (lvG l) = some l := by cases l <;> rfl

theorem parseCall_of (l : LV) (d : String) (ns : List String) :
    parseCallOf (.call (.sel (lvG l) "Parse") (.id d :: ns.map .id)) = some (l, .var d, ns) := by
  have h := names_args ns
  rw [List.mapM_map] at h
  simp [parseCallOf, lvOf_lvG, exprOf, h]

theorem args_ok {ns : List String} (hn : ∀ n ∈ ns, GoIdent n) {x : String} (hx : GoIdent x) :
    (Piece.sym true (lit x ++ GenText.contextArgs ns) (.id x :: argToks ns)).OK :=
  ⟨args_lex hn (lex_ident hx), opens_append (opens_ident hx)⟩

theorem ident_cur : GoIdent "cur" := ⟨⟨'c', ['u', 'r'], rfl, by decide, by decide⟩, by decide⟩
theorem ident_data : GoIdent "data" := ⟨⟨'d', ['a', 't', 'a'], rfl, by decide, by decide⟩, by decide⟩
theorem ident_byte : GoIdent "byte" := ⟨⟨'b', ['y', 't', 'e'], rfl, by decide, by decide⟩, by decide⟩
theorem ident_tmp : GoIdent "tmp" := ⟨⟨'t', ['m', 'p'], rfl, by decide, by decide⟩, by decide⟩
theorem ident_idx : GoIdent "idx" := ⟨⟨'i', ['d', 'x'], rfl, by decide, by decide⟩, by decide⟩

theorem rd_call {l : LV} (hl : LVGood l) {ns : List String} (hn : ∀ n ∈ ns, GoIdent n) :
    Reads (lit "cur, err = " ++ lvText l ++ lit ".Parse(cur" ++ GenText.contextArgs ns ++ lit ")\n")
      [.callParse "cur" "err" l Gen.cur ns] := by
  refine Reads.line (ns.length + 30) (ps := [.lit (lit "cur, err = "), lvP l, .lit (lit ".Parse("),
      .sym true (lit "cur" ++ GenText.contextArgs ns) (.id "cur" :: argToks ns), .lit (lit ")\n")])
    (ts := [.id "cur", .op .comma, .id "err", .op .assign] ++ (lvToks l ++ ([.op .dot, .id "Parse", .op .lparen] ++
      (.id "cur" :: (argToks ns ++ [.op .rparen, .op .semi]))))) rfl
    (pieces_cons trivial (pieces_cons (lvP_ok hl) (pieces_cons trivial (pieces_cons (args_ok hn ident_cur) (pieces_cons trivial pieces_nil)))))
    (by simp [flat, lit]) rfl (fun n rest => ?_)
  have hp : pStmt (n + (ns.length + 30)) ([.id "cur", .op .comma, .id "err", .op .assign] ++ (lvToks l ++ ([.op .dot, .id "Parse", .op .lparen] ++
      (.id "cur" :: (argToks ns ++ [.op .rparen, .op .semi])))) ++ rest) =
      some (.assign [.id "cur", .id "err"] [.call (.sel (lvG l) "Parse") (.id "cur" :: ns.map .id)], .op .semi :: rest) := by
    have h1 := pList_parse l ns "cur" (n + 9) rest
    rw [show n + 9 + ns.length + 20 = n + (ns.length + 29) by omega] at h1
    have h2 : pStmt (n + (ns.length + 30)) ([.id "cur", .op .comma, .id "err", .op .assign] ++ (lvToks l ++ ([.op .dot, .id "Parse", .op .lparen] ++
      (.id "cur" :: (argToks ns ++ [.op .rparen, .op .semi])))) ++ rest) =
      (pList (n + (ns.length + 29)) (lvToks l ++ ([.op .dot, .id "Parse", .op .lparen] ++
      (.id "cur" :: (argToks ns ++ [.op .rparen, .op .semi]))) ++ rest)).map fun p => (.assign [.id "cur", .id "err"] p.1, p.2) := rfl
    rw [h2]
    have h3 : lvToks l ++ ([.op .dot, .id "Parse", .op .lparen] ++ (.id "cur" :: (argToks ns ++ [.op .rparen, .op .semi]))) ++ rest =
        lvToks l ++ .op .dot :: .id "Parse" :: .op .lparen :: .id "cur" :: (argToks ns ++ .op .rparen :: .op .semi :: rest) := by simp
    rw [h3, h1]
    rfl
  rw [eStmt, hp]
  simp [stmtOf, assignOf, parseCall_of, Gen.cur]

theorem rd_define {x : String} (hx : GoIdent x) {ns : List String} (hn : ∀ n ∈ ns, GoIdent n) :
    Reads (lit "_, err := " ++ lit x ++ lit ".Parse(data" ++ GenText.contextArgs ns ++ lit ")\n")
      [.callDefine "err" (.var x) (.var "data") ns] := by
  refine Reads.line (ns.length + 30) (ps := [.lit (lit "_, err := "), word x, .lit (lit ".Parse("),
      .sym true (lit "data" ++ GenText.contextArgs ns) (.id "data" :: argToks ns), .lit (lit ")\n")])
    (ts := [.id "_", .op .comma, .id "err", .op .define] ++ (.id x :: ([.op .dot, .id "Parse", .op .lparen] ++
      (.id "data" :: (argToks ns ++ [.op .rparen, .op .semi]))))) rfl
    (pieces_cons trivial (pieces_cons (word_ok hx) (pieces_cons trivial (pieces_cons (args_ok hn ident_data) (pieces_cons trivial pieces_nil)))))
    (by simp [flat, lit]) rfl (fun n rest => ?_)
  have hp : pStmt (n + (ns.length + 30)) ([.id "_", .op .comma, .id "err", .op .define] ++ (.id x :: ([.op .dot, .id "Parse", .op .lparen] ++
      (.id "data" :: (argToks ns ++ [.op .rparen, .op .semi])))) ++ rest) =
      some (.define [.id "_", .id "err"] [.call (.sel (lvG (.var x)) "Parse") (.id "data" :: ns.map .id)], .op .semi :: rest) := by
    have h1 := pList_parse (.var x) ns "data" (n + 9) rest
    rw [show n + 9 + ns.length + 20 = n + (ns.length + 29) by omega] at h1
    have h2 : pStmt (n + (ns.length + 30)) ([.id "_", .op .comma, .id "err", .op .define] ++ (.id x :: ([.op .dot, .id "Parse", .op .lparen] ++
      (.id "data" :: (argToks ns ++ [.op .rparen, .op .semi])))) ++ rest) =
      (pList (n + (ns.length + 29)) (lvToks (.var x) ++ ([.op .dot, .id "Parse", .op .lparen] ++
      (.id "data" :: (argToks ns ++ [.op .rparen, .op .semi]))) ++ rest)).map fun p => (.define [.id "_", .id "err"] p.1, p.2) := rfl
    rw [h2]
    have h3 : lvToks (.var x) ++ ([.op .dot, .id "Parse", .op .lparen] ++ (.id "data" :: (argToks ns ++ [.op .rparen, .op .semi]))) ++ rest =
        lvToks (.var x) ++ .op .dot :: .id "Parse" :: .op .lparen :: .id "data" :: (argToks ns ++ .op .rparen :: .op .semi :: rest) := by simp
    rw [h3, h1]
    rfl
  rw [eStmt, hp]
  simp [stmtOf, defineOf, parseCall_of]

theorem rd_ret {x : String} (h : GoIdent x) (hn : x ≠ "nil") : Reads (lit "return " ++ lit x ++ lit ", nil\n") [.ret (.var x)] := by
  refine Reads.line 20 (ps := [.lit (lit "return "), word x, .lit (lit ", nil\n")])
    (ts := [.kw .return, .id x, .op .comma, .id "nil", .op .semi]) rfl
    (pieces_cons trivial (pieces_cons (word_ok h) (pieces_cons trivial pieces_nil))) (by simp [flat]) rfl (fun n rest => ?_)
  have : stmtOf (.ret [.id x, .id "nil"]) = some (.ret (.var x)) := by simp [stmtOf, retOf, hn]
  have hp : pStmt (n + 20) ([.kw .return, .id x, .op .comma, .id "nil", .op .semi] ++ rest) = some (.ret [.id x, .id "nil"], .op .semi :: rest) := rfl
  rw [eStmt, hp]
  simp [this]

/-! ## Statements with blocks -/

theorem rd_if {c : GenText.Text} {ts : List Tok} {e : Expr} (hl : Lexes false c ts) (ho : opens c = true) (hc : CondR ts e)
    {u : GenText.Text} {ss : List Stmt} (hu : Reads u ss) :
    Reads (lit "if !(" ++ c ++ lit ") {\n" ++ u ++ lit "}\n") [.ifS (.not e) ss] := by
  obtain ⟨F, hc⟩ := hc
  refine Reads.head (F + 4) (hd := [.kw .if, .op .not, .op .lparen] ++ (ts ++ [.op .rparen])) ?_ rfl hu (fun n gs r rest hn hb hs => ?_)
  · have := run_scan (ps := [.lit (lit "if !("), .sym false c ts, .lit (lit ") {\n")]) (m := .start) (semi := false)
      (r := ([.kw .if, .op .not, .op .lparen] ++ (ts ++ [.op .rparen, .op .lbrace]), .start, false))
      (pieces_cons trivial (pieces_cons ⟨hl, ho⟩ (pieces_cons trivial pieces_nil))) rfl
    simpa [flat] using this
  · obtain ⟨m, rfl⟩ := Nat.exists_eq_add_of_le' hn
    obtain ⟨y, hy, he⟩ := hc (m + F + 1) (by omega) .rparen (.op .lbrace :: r) (.inl rfl)
    have h1 : pBin (m + (F + 4)) 1 (.op .not :: .op .lparen :: (ts ++ .op .rparen :: .op .lbrace :: r)) = some (.unary .not y, .op .lbrace :: r) := by
      rw [show m + (F + 4) = (m + F) + 1 + 1 + 1 + 1 by omega]
      have h2 : pUnary (m + F + 1 + 1) (.op .lparen :: (ts ++ .op .rparen :: .op .lbrace :: r)) = some (y, .op .lbrace :: r) := by
        rw [pUnary, hy]
        rfl
      rw [pBin, pUnary, h2]
      rfl
    have h3 : pStmt (m + (F + 4) + 1) ([.kw .if, .op .not, .op .lparen] ++ (ts ++ [.op .rparen]) ++ .op .lbrace :: r) =
        some (.ifS (.unary .not y) gs, rest) := by
      have : [.kw .if, .op .not, .op .lparen] ++ (ts ++ [.op .rparen]) ++ .op .lbrace :: r =
        .kw .if :: .op .not :: .op .lparen :: (ts ++ .op .rparen :: .op .lbrace :: r) := by simp
      rw [this, pStmt, h1]
      simp [hb]
    rw [eStmt, h3]
    simp [stmtOf, exprOf, he, hs]

/-- The bound of a loop. -/
inductive Bound : GenText.Text → List Tok → Expr → Prop
  | num (k : Nat) : Bound (itoa k) [.int k] (.lit k)
  | ref {x f : String} : GoIdent x → GoIdent f → Bound (lit "int(" ++ (lit x ++ lit "." ++ lit f) ++ lit ")")
      [.id "int", .op .lparen, .id x, .op .dot, .id f, .op .rparen] (.toInt (.field (.var x) f))

theorem rd_for {t : GenText.Text} {ts : List Tok} {e : Expr} (hb : Bound t ts e) {u : GenText.Text} {ss : List Stmt} (hu : Reads u ss) :
    Reads (lit "for idx := 0; idx < " ++ t ++ lit "; idx++ {\n" ++ u ++ lit "}\n") [.forIdx "idx" e ss] := by
  refine Reads.head 30 (hd := [.kw .for, .id "idx", .op .define, .int 0, .op .semi, .id "idx", .op .lt] ++
    (ts ++ [.op .semi, .id "idx", .op .inc])) ?_ rfl hu (fun n gs r rest hn hb' hs => ?_)
  · cases hb with
    | num k =>
      have := run_scan (ps := [.lit (lit "for idx := 0; idx < "), num k, .lit (lit "; idx++ {\n")]) (m := .start) (semi := false)
        (r := ([.kw .for, .id "idx", .op .define, .int 0, .op .semi, .id "idx", .op .lt, .int k, .op .semi, .id "idx", .op .inc, .op .lbrace],
          .start, false)) (pieces_cons trivial (pieces_cons (num_ok k) (pieces_cons trivial pieces_nil))) rfl
      simpa [flat] using this
    | @ref x f hx hf =>
      have := run_scan (ps := [.lit (lit "for idx := 0; idx < int("), word x, .lit (lit "."), word f, .lit (lit "); idx++ {\n")]) (m := .start) (semi := false)
        (r := ([.kw .for, .id "idx", .op .define, .int 0, .op .semi, .id "idx", .op .lt, .id "int", .op .lparen, .id x, .op .dot, .id f, .op .rparen,
          .op .semi, .id "idx", .op .inc, .op .lbrace],
          .start, false)) (pieces_cons trivial (pieces_cons (word_ok hx) (pieces_cons trivial (pieces_cons (word_ok hf) (pieces_cons trivial pieces_nil))))) rfl
      simpa [flat, lit] using this
  · obtain ⟨m, rfl⟩ := Nat.exists_eq_add_of_le' hn
    cases hb with
    | num k =>
      have h3 : pStmt (m + 30 + 1) ([.kw .for, .id "idx", .op .define, .int 0, .op .semi, .id "idx", .op .lt] ++
          ([.int k] ++ [.op .semi, .id "idx", .op .inc]) ++ .op .lbrace :: r) =
          (pBlock (m + 30) (.op .lbrace :: r)).map fun p =>
            (.forS (.define [.id "idx"] [.int 0]) (.binary .lt (.id "idx") (.int k)) (.inc (.id "idx")) p.1, p.2) := rfl
      rw [eStmt, h3, hb']
      simp [stmtOf, headerOf, exprOf, hs]
    | @ref x f hx hf =>
      have h3 : pStmt (m + 30 + 1) ([.kw .for, .id "idx", .op .define, .int 0, .op .semi, .id "idx", .op .lt] ++
          ([.id "int", .op .lparen, .id x, .op .dot, .id f, .op .rparen] ++ [.op .semi, .id "idx", .op .inc]) ++ .op .lbrace :: r) =
          (pBlock (m + 30) (.op .lbrace :: r)).map fun p =>
            (.forS (.define [.id "idx"] [.int 0]) (.binary .lt (.id "idx") (.call (.id "int") [.sel (.id x) f])) (.inc (.id "idx")) p.1, p.2) := rfl
      rw [eStmt, h3, hb']
      simp [stmtOf, headerOf, exprOf, callOf, hs]

theorem rd_while {u : GenText.Text} {ss : List Stmt} (hu : Reads u ss) :
    Reads (lit "for len(cur) > 0 {\n" ++ u ++ lit "}\n") [.forC (.gt (.len Gen.cur) (.lit 0)) ss] := by
  refine Reads.head 30 (hd := [.kw .for, .id "len", .op .lparen, .id "cur", .op .rparen, .op .gt, .int 0])
    (by decide +kernel) rfl hu (fun n gs r rest hn hb' hs => ?_)
  obtain ⟨m, rfl⟩ := Nat.exists_eq_add_of_le' hn
  have h3 : pStmt (m + 30 + 1) ([.kw .for, .id "len", .op .lparen, .id "cur", .op .rparen, .op .gt, .int 0] ++ .op .lbrace :: r) =
      (pBlock (m + 30) (.op .lbrace :: r)).map fun p => (.while (.binary .gt (.call (.id "len") [.id "cur"]) (.int 0)) p.1, p.2) := rfl
  rw [eStmt, h3, hb']
  simp [stmtOf, exprOf, callOf, binOf, hs, Gen.cur]

/-- `fail`: no newline before the brace. -/
theorem rd_fail : Reads (lit "{\n" ++ lit "return nil, errors.New(\"disallowed case\")" ++ lit "}\n") [.block [.retNew "disallowed case"]] :=
  Reads.line 20 (ps := [.lit (lit "{\nreturn nil, errors.New(\"disallowed case\")}\n")])
    (ts := [.op .lbrace, .kw .return, .id "nil", .op .comma, .id "errors", .op .dot, .id "New", .op .lparen, .str "disallowed case", .op .rparen,
      .op .rbrace, .op .semi])
    (by decide +kernel) (pieces_cons trivial pieces_nil) (by simp [flat, lit])
    (by rfl) (fun n rest => by rfl)

/-! ## Clauses -/

/-- The tokens are clauses up to the end of the switch. -/
def CL (ts : List Tok) (cs : List (Option Expr × List Stmt)) : Prop :=
  (∀ rest, ∃ t r, ts ++ .op .rbrace :: rest = t :: r ∧ (t = .op .rbrace ∨ t = .kw .case ∨ t = .kw .default)) ∧
    ∃ F, ∀ n, F ≤ n → ∀ rest, eClauses n (ts ++ .op .rbrace :: rest) = some (cs, .op .rbrace :: rest)

/-- The text is clauses. -/
def ReadsC (t : GenText.Text) (cs : List (Option Expr × List Stmt)) : Prop := ∃ ts, scan .start false t = (ts, .start, false) ∧ CL ts cs

theorem ReadsC.nil : ReadsC [] [] := by
  refine ⟨[], rfl, fun rest => ⟨_, _, rfl, .inl rfl⟩, 1, fun n hn rest => ?_⟩
  obtain ⟨m, rfl⟩ := Nat.exists_eq_add_of_le' hn
  rfl

theorem SL.clause {ts us : List Tok} {ss : List Stmt} {cs : List (Option Expr × List Stmt)} (h : SL ts ss) (hc : CL us cs) :
    ∃ F, ∀ n, F ≤ n → ∀ rest, ∃ gs hs, pStmts n (ts ++ (us ++ .op .rbrace :: rest)) = some (gs, us ++ .op .rbrace :: rest) ∧
      stmtsOf gs = some ss ∧ pClauses n (us ++ .op .rbrace :: rest) = some (hs, .op .rbrace :: rest) ∧ clausesOf hs = some cs := by
  obtain ⟨F, k, h⟩ := h
  obtain ⟨hh, G, hc⟩ := hc
  refine ⟨F + k + 1 + G, fun n hn rest => ?_⟩
  have h0 : eStmts (n - k) (us ++ .op .rbrace :: rest) = some ([], us ++ .op .rbrace :: rest) := by
    obtain ⟨t, r, hr, ht⟩ := hh rest
    obtain ⟨m, hm⟩ := Nat.exists_eq_add_of_le' (show 1 ≤ n - k by omega)
    rw [hr, hm]
    rcases ht with rfl | rfl | rfl <;> rfl
  have h1 := h _ (by omega) _ _ _ h0
  rw [show n - k + k = n by omega] at h1
  have h2 := hc n (by omega) rest
  simp only [eStmts, Option.bind_eq_some_iff, Option.map_eq_some_iff, Prod.mk.injEq, Prod.exists] at h1
  obtain ⟨gs, r, hp, ss', hs, he, rfl⟩ := h1
  simp only [eClauses, Option.bind_eq_some_iff, Option.map_eq_some_iff, Prod.mk.injEq, Prod.exists] at h2
  obtain ⟨gs', r', hp', cs', hs', rfl, rfl⟩ := h2
  simp only [List.append_nil] at he
  exact ⟨gs, gs', hp, he ▸ hs, hp', hs'⟩

theorem ReadsC.default {t u : GenText.Text} {ss : List Stmt} {cs : List (Option Expr × List Stmt)} (h : Reads t ss) (hc : ReadsC u cs) :
    ReadsC (lit "default:\n" ++ t ++ u) ((none, ss) :: cs) := by
  obtain ⟨ts, ht, hs⟩ := h
  obtain ⟨us, hu, hc⟩ := hc
  obtain ⟨F, hF⟩ := hs.clause hc
  refine ⟨[.kw .default, .op .colon] ++ (ts ++ us), ?_, fun rest => ⟨_, _, rfl, .inr (.inr rfl)⟩, F + 1, fun n hn rest => ?_⟩
  · rw [List.append_assoc]
    exact scan_line (by decide +kernel) (scan_line ht hu)
  · obtain ⟨m, rfl⟩ := Nat.exists_eq_add_of_le' hn
    obtain ⟨gs, hs, h1, h2, h3, h4⟩ := hF (m + F) (by omega) rest
    have : [.kw .default, .op .colon] ++ (ts ++ us) ++ .op .rbrace :: rest = .kw .default :: .op .colon :: (ts ++ (us ++ .op .rbrace :: rest)) := by simp
    rw [this, eClauses, show m + (F + 1) = m + F + 1 by omega, pClauses]
    simp [h1, h3, clausesOf, h2, h4]

theorem ReadsC.case {c t u : GenText.Text} {ts : List Tok} {e : Expr} (hl : Lexes false c ts) (ho : opens c = true) (hc : CondR ts e)
    {ss : List Stmt} {cs : List (Option Expr × List Stmt)} (h : Reads t ss) (hcs : ReadsC u cs) :
    ReadsC ((lit "case " ++ c ++ lit ":\n") ++ t ++ u) ((some e, ss) :: cs) := by
  obtain ⟨bs, ht, hs⟩ := h
  obtain ⟨us, hu, hcs⟩ := hcs
  obtain ⟨F, hF⟩ := hs.clause hcs
  obtain ⟨G, hG⟩ := hc
  refine ⟨([.kw .case] ++ (ts ++ [.op .colon])) ++ (bs ++ us), ?_, fun rest => ⟨_, _, rfl, .inr (.inl rfl)⟩, F + G + 2, fun n hn rest => ?_⟩
  · rw [List.append_assoc]
    refine scan_line ?_ (scan_line ht hu)
    have := run_scan (ps := [.lit (lit "case "), .sym false c ts, .lit (lit ":\n")]) (m := .start) (semi := false)
      (r := ([.kw .case] ++ (ts ++ [.op .colon]), .start, false))
      (pieces_cons trivial (pieces_cons ⟨hl, ho⟩ (pieces_cons trivial pieces_nil))) rfl
    simpa [flat] using this
  · obtain ⟨m, rfl⟩ := Nat.exists_eq_add_of_le' hn
    obtain ⟨gs, hs, h1, h2, h3, h4⟩ := hF (m + F + G + 1) (by omega) rest
    obtain ⟨y, hy, he⟩ := hG (m + F + G) (by omega) .colon (bs ++ (us ++ .op .rbrace :: rest)) (.inr rfl)
    have : ([.kw .case] ++ (ts ++ [.op .colon])) ++ (bs ++ us) ++ .op .rbrace :: rest =
      .kw .case :: (ts ++ .op .colon :: (bs ++ (us ++ .op .rbrace :: rest))) := by simp
    have hp : pList (m + F + G + 1) (ts ++ .op .colon :: (bs ++ (us ++ .op .rbrace :: rest))) =
        some ([y], .op .colon :: (bs ++ (us ++ .op .rbrace :: rest))) := by
      rw [pList, hy]
    rw [this, eClauses, show m + (F + G + 2) = m + F + G + 1 + 1 by omega, pClauses]
    simp [hp, h1, h3, clausesOf, he, h2, h4]

theorem rd_switch {t : GenText.Text} {cs : List (Option Expr × List Stmt)} (h : ReadsC t cs) :
    Reads (lit "switch {\n" ++ t ++ lit "}\n") [.switch cs] := by
  obtain ⟨ts, ht, hh, F, hF⟩ := h
  refine ⟨[.kw .switch, .op .lbrace] ++ (ts ++ [.op .rbrace, .op .semi]), ?_, SL.one (F + 1) rfl fun n rest hn => ?_⟩
  · rw [List.append_assoc]
    exact scan_line (by decide +kernel) (scan_line ht (by decide))
  · obtain ⟨m, rfl⟩ := Nat.exists_eq_add_of_le' hn
    have h1 := hF (m + F) (by omega) (.op .semi :: rest)
    simp only [eClauses, Option.bind_eq_some_iff, Option.map_eq_some_iff, Prod.mk.injEq, Prod.exists] at h1
    obtain ⟨gs, r, hp, cs', hs, rfl, rfl⟩ := h1
    have : [.kw .switch, .op .lbrace] ++ (ts ++ [.op .rbrace, .op .semi]) ++ rest =
      .kw .switch :: .op .lbrace :: (ts ++ .op .rbrace :: .op .semi :: rest) := by simp
    rw [this, eStmt, show m + (F + 1) = m + F + 1 by omega, pStmt]
    simp [hp, stmtOf, hs]

end Verif.Go.Read
