import Verif.GoReadGen
/-!
# The lines printed by `gen/decl.go`
-/
namespace Verif.Go.Read
open Verif Verif.Ast Verif.Go
open Verif.GenText (lit itoa)

/-- A location, as an argument of a line. -/
abbrev lvP (l : LV) : Piece := .sym true (lvText l) (lvToks l)

theorem lvP_ok {l : LV} (h : LVGood l) : (lvP l).OK := ⟨lex_lv h, opens_lv h⟩

/-- The text of element types. -/
inductive TT : GenText.Text → GTy → Prop
  | u8 : TT (lit "uint8") (.uint 8)
  | u16 : TT (lit "uint16") (.uint 16)
  | u32 : TT (lit "uint32") (.uint 32)
  | u64 : TT (lit "uint64") (.uint 64)
  | byte : TT (lit "byte") .byte
  | ptr {T : String} : GoIdent T → TT (lit "*" ++ lit T) (.ptr T)

/-- The tokens of element types. -/
def tyToks : GTy → List Tok
  | .uint n => if n = 8 then [.id "uint8"] else if n = 16 then [.id "uint16"] else if n = 32 then [.id "uint32"] else [.id "uint64"]
  | .byte => [.id "byte"]
  | .ptr T => [.op .star, .id T]
  | _ => []

theorem tt_ok {t : GenText.Text} {ty : GTy} (h : TT t ty) : (Piece.sym true t (tyToks ty)).OK := by
  have ident : ∀ {x : String} {c : Char} {cs : List Char}, x.toList = c :: cs → letter c = true → (∀ d ∈ cs, wordChar d = true) →
      keywords.lookup x.toList = none → (word x).OK := fun h1 h2 h3 h4 => word_ok ⟨⟨_, _, h1, h2, h3⟩, h4⟩
  cases h with
  | u8 => exact ident (x := "uint8") rfl (by decide) (by decide) (by decide)
  | u16 => exact ident (x := "uint16") rfl (by decide) (by decide) (by decide)
  | u32 => exact ident (x := "uint32") rfl (by decide) (by decide) (by decide)
  | u64 => exact ident (x := "uint64") rfl (by decide) (by decide) (by decide)
  | byte => exact ident (x := "byte") rfl (by decide) (by decide) (by decide)
  | ptr hT =>
    refine ⟨?_, rfl⟩
    exact (lex_ident hT).after (l := lit "*") (us := []) (m := .op ['*']) (vs := [.op .star]) (opens_ident hT) (fun s => ⟨s, rfl⟩) rfl (fun s => rfl)

theorem tipe_text {g : Gen.Cfg} {b : Base} (h : BaseOK g.nm b) : TT (GenText.tipeBase g b) (Gen.tipeBase g b) := by
  cases b with
  | int t =>
    rcases h.1 with h | h | h | h
    · simp only [GenText.tipeBase, Gen.tipeBase, h]; exact .u8
    · simp only [GenText.tipeBase, Gen.tipeBase, h]; exact .u16
    · simp only [GenText.tipeBase, Gen.tipeBase, h]; exact .u32
    · simp only [GenText.tipeBase, Gen.tipeBase, h]; exact .u64
  | char => exact .byte
  | struct n => exact .ptr h

/-! ## Lines without a location -/

theorem rd_end : Reads (GenText.assertEnd) [Gen.assertEnd] :=
  Reads.line 20 (ps := [.lit (lit "if len(cur) > 0 { return nil, errors.New(\"trailing data disallowed\") }\n")])
    (ts := [.kw .if, .id "len", .op .lparen, .id "cur", .op .rparen, .op .gt, .int 0, .op .lbrace, .kw .return, .id "nil", .op .comma, .id "errors", .op .dot, .id "New", .op .lparen, .str "trailing data disallowed", .op .rparen, .op .rbrace, .op .semi])
    (by decide +kernel) (pieces_cons trivial pieces_nil) (by simp [flat, GenText.assertEnd])
    (by rfl) (fun n rest => by rfl)

theorem rd_ignore : Reads (lit "cur = []byte{}\n") [.assign (.var "cur") .emptyBytes] :=
  Reads.line 20 (ps := [.lit (lit "cur = []byte{}\n")])
    (ts := [.id "cur", .op .assign, .op .lbrack, .op .rbrack, .id "byte", .op .lbrace, .op .rbrace, .op .semi])
    (by decide +kernel) (pieces_cons trivial pieces_nil) (by simp [flat])
    (by rfl) (fun n rest => by rfl)

theorem rd_restore : Reads (lit "cur = restore\n") [.assign (.var "cur") (.var "restore")] :=
  Reads.line 20 (ps := [.lit (lit "cur = restore\n")])
    (ts := [.id "cur", .op .assign, .id "restore", .op .semi])
    (by decide +kernel) (pieces_cons trivial pieces_nil) (by simp [flat])
    (by rfl) (fun n rest => by rfl)

theorem rd_var_err : Reads (lit "var err error\n") [.varDecl "err" .error] :=
  Reads.line 20 (ps := [.lit (lit "var err error\n")])
    (ts := [.kw .var, .id "err", .id "error", .op .semi])
    (by decide +kernel) (pieces_cons trivial pieces_nil) (by simp [flat])
    (by rfl) (fun n rest => by rfl)

theorem rd_err : Reads (lit "if err != nil { return nil, err }\n") [.ifS (.notNil (.var "err")) [.retErr "err"]] :=
  Reads.line 20 (ps := [.lit (lit "if err != nil { return nil, err }\n")])
    (ts := [.kw .if, .id "err", .op .ne, .id "nil", .op .lbrace, .kw .return, .id "nil", .op .comma, .id "err", .op .rbrace, .op .semi])
    (by decide +kernel) (pieces_cons trivial pieces_nil) (by simp [flat])
    (by rfl) (fun n rest => by rfl)

theorem rd_index : Reads (lit "i := bytes.IndexByte(cur, 0)\n") [.define "i" (.indexByte0 Gen.cur)] :=
  Reads.line 20 (ps := [.lit (lit "i := bytes.IndexByte(cur, 0)\n")])
    (ts := [.id "i", .op .define, .id "bytes", .op .dot, .id "IndexByte", .op .lparen, .id "cur", .op .comma, .int 0, .op .rparen, .op .semi])
    (by decide +kernel) (pieces_cons trivial pieces_nil) (by simp [flat])
    (by rfl) (fun n rest => by rfl)

theorem rd_nul : Reads (lit "if i < 0 { return nil, errors.New(\"could not parse nul-term string\") }\n") [.ifS (.lt (.var "i") (.lit 0)) [.retNew "could not parse nul-term string"]] :=
  Reads.line 20 (ps := [.lit (lit "if i < 0 { return nil, errors.New(\"could not parse nul-term string\") }\n")])
    (ts := [.kw .if, .id "i", .op .lt, .int 0, .op .lbrace, .kw .return, .id "nil", .op .comma, .id "errors", .op .dot, .id "New", .op .lparen, .str "could not parse nul-term string", .op .rparen, .op .rbrace, .op .semi])
    (by decide +kernel) (pieces_cons trivial pieces_nil) (by simp [flat])
    (by rfl) (fun n rest => by rfl)

theorem rd_cur : Reads (lit "cur := data\n") [.define "cur" (.var "data")] :=
  Reads.line 20 (ps := [.lit (lit "cur := data\n")])
    (ts := [.id "cur", .op .define, .id "data", .op .semi])
    (by decide +kernel) (pieces_cons trivial pieces_nil) (by simp [flat])
    (by rfl) (fun n rest => by rfl)

theorem rd_ret_cur : Reads (lit "return cur, nil\n") [.ret Gen.cur] :=
  Reads.line 20 (ps := [.lit (lit "return cur, nil\n")])
    (ts := [.kw .return, .id "cur", .op .comma, .id "nil", .op .semi])
    (by decide +kernel) (pieces_cons trivial pieces_nil) (by simp [flat])
    (by rfl) (fun n rest => by rfl)

theorem rd_violated : Reads (lit "return nil, errors.New(\"integer constraint violated\")\n") [.retNew "integer constraint violated"] :=
  Reads.line 20 (ps := [.lit (lit "return nil, errors.New(\"integer constraint violated\")\n")])
    (ts := [.kw .return, .id "nil", .op .comma, .id "errors", .op .dot, .id "New", .op .lparen, .str "integer constraint violated", .op .rparen, .op .semi])
    (by decide +kernel) (pieces_cons trivial pieces_nil) (by simp [flat])
    (by rfl) (fun n rest => by rfl)

theorem rd_advance (k : Nat) : Reads (lit "cur = cur[" ++ itoa k ++ lit ":]\n") [.assign (.var "cur") (.sliceFrom Gen.cur (.lit k))] :=
  Reads.line 20 (ps := [.lit (lit "cur = cur["), num k, .lit (lit ":]\n")])
    (ts := [.id "cur", .op .assign, .id "cur", .op .lbrack, .int k, .op .colon, .op .rbrack, .op .semi])
    (rfl) (pieces_cons trivial (pieces_cons (num_ok k) (pieces_cons trivial pieces_nil))) (by simp [flat])
    (by rfl) (fun n rest => by rfl)

theorem rd_new_recv {x : String} (hx : GoIdent x) {T : String} (hT : GoIdent T) : Reads (lit x ++ lit " := new(" ++ lit T ++ lit ")\n") [.define x (.new T)] :=
  Reads.line 20 (ps := [word x, .lit (lit " := new("), word T, .lit (lit ")\n")])
    (ts := [.id x, .op .define, .id "new", .op .lparen, .id T, .op .rparen, .op .semi])
    (rfl) (pieces_cons (word_ok hx) (pieces_cons trivial (pieces_cons (word_ok hT) (pieces_cons trivial pieces_nil)))) (by simp [flat])
    (by rfl) (fun n rest => by rfl)

/-! ## Lines with a location -/

theorem rd_string {l : LV} (hl : LVGood l) : Reads (lvText l ++ lit ", cur = string(cur[:i]), cur[i+1:]\n") [.assign2 l (.var "cur") (.toStr (.sliceTo Gen.cur (.var "i"))) (.sliceFrom Gen.cur (.add (.var "i") (.lit 1)))] :=
  Reads.line 20 (ps := [lvP l, .lit (lit ", cur = string(cur[:i]), cur[i+1:]\n")])
    (ts := (lvToks l ++ ([.op .comma, .id "cur", .op .assign, .id "string", .op .lparen, .id "cur", .op .lbrack, .op .colon, .id "i", .op .rbrack, .op .rparen, .op .comma, .id "cur", .op .lbrack, .id "i", .op .plus, .int 1, .op .colon, .op .rbrack, .op .semi])))
    (rfl) (pieces_cons (lvP_ok hl) (pieces_cons trivial pieces_nil)) (by simp [flat])
    (by cases l <;> rfl) (fun n rest => by cases l <;> rfl)

theorem rd_pos {l : LV} (hl : LVGood l) : Reads (lvText l ++ lit " = len(data) - len(cur)\n") [.assign l (.sub (.len (.var "data")) (.len Gen.cur))] :=
  Reads.line 20 (ps := [lvP l, .lit (lit " = len(data) - len(cur)\n")])
    (ts := (lvToks l ++ ([.op .assign, .id "len", .op .lparen, .id "data", .op .rparen, .op .minus, .id "len", .op .lparen, .id "cur", .op .rparen, .op .semi])))
    (rfl) (pieces_cons (lvP_ok hl) (pieces_cons trivial pieces_nil)) (by simp [flat])
    (by cases l <;> rfl) (fun n rest => by cases l <;> rfl)

theorem rd_byte {l : LV} (hl : LVGood l) : Reads (lvText l ++ lit " = cur[0]\n") [.assign l (.index Gen.cur (.lit 0))] :=
  Reads.line 20 (ps := [lvP l, .lit (lit " = cur[0]\n")])
    (ts := (lvToks l ++ ([.op .assign, .id "cur", .op .lbrack, .int 0, .op .rbrack, .op .semi])))
    (rfl) (pieces_cons (lvP_ok hl) (pieces_cons trivial pieces_nil)) (by simp [flat])
    (by cases l <;> rfl) (fun n rest => by cases l <;> rfl)

theorem rd_uint16 {l : LV} (hl : LVGood l) : Reads (lvText l ++ lit " = binary.BigEndian.Uint16(cur)\n") [.assign l (.beUint 16 Gen.cur)] :=
  Reads.line 20 (ps := [lvP l, .lit (lit " = binary.BigEndian.Uint16(cur)\n")])
    (ts := (lvToks l ++ ([.op .assign, .id "binary", .op .dot, .id "BigEndian", .op .dot, .id "Uint16", .op .lparen, .id "cur", .op .rparen, .op .semi])))
    (rfl) (pieces_cons (lvP_ok hl) (pieces_cons trivial pieces_nil)) (by simp [flat])
    (by cases l <;> rfl) (fun n rest => by cases l <;> rfl)

theorem rd_uint32 {l : LV} (hl : LVGood l) : Reads (lvText l ++ lit " = binary.BigEndian.Uint32(cur)\n") [.assign l (.beUint 32 Gen.cur)] :=
  Reads.line 20 (ps := [lvP l, .lit (lit " = binary.BigEndian.Uint32(cur)\n")])
    (ts := (lvToks l ++ ([.op .assign, .id "binary", .op .dot, .id "BigEndian", .op .dot, .id "Uint32", .op .lparen, .id "cur", .op .rparen, .op .semi])))
    (rfl) (pieces_cons (lvP_ok hl) (pieces_cons trivial pieces_nil)) (by simp [flat])
    (by cases l <;> rfl) (fun n rest => by cases l <;> rfl)

theorem rd_uint64 {l : LV} (hl : LVGood l) : Reads (lvText l ++ lit " = binary.BigEndian.Uint64(cur)\n") [.assign l (.beUint 64 Gen.cur)] :=
  Reads.line 20 (ps := [lvP l, .lit (lit " = binary.BigEndian.Uint64(cur)\n")])
    (ts := (lvToks l ++ ([.op .assign, .id "binary", .op .dot, .id "BigEndian", .op .dot, .id "Uint64", .op .lparen, .id "cur", .op .rparen, .op .semi])))
    (rfl) (pieces_cons (lvP_ok hl) (pieces_cons trivial pieces_nil)) (by simp [flat])
    (by cases l <;> rfl) (fun n rest => by cases l <;> rfl)

theorem rd_new {l : LV} (hl : LVGood l) {T : String} (hT : GoIdent T) : Reads (lvText l ++ lit " = new(" ++ lit T ++ lit ")\n") [.assign l (.new T)] :=
  Reads.line 20 (ps := [lvP l, .lit (lit " = new("), word T, .lit (lit ")\n")])
    (ts := (lvToks l ++ ([.op .assign, .id "new", .op .lparen, .id T, .op .rparen, .op .semi])))
    (rfl) (pieces_cons (lvP_ok hl) (pieces_cons trivial (pieces_cons (word_ok hT) (pieces_cons trivial pieces_nil)))) (by simp [flat])
    (by cases l <;> rfl) (fun n rest => by cases l <;> rfl)

theorem rd_append {l : LV} (hl : LVGood l) : Reads (lvText l ++ lit " = append(" ++ lvText l ++ lit ", tmp)\n") [.assign l (.append l.expr (.var "tmp"))] :=
  Reads.line 20 (ps := [lvP l, .lit (lit " = append("), lvP l, .lit (lit ", tmp)\n")])
    (ts := (lvToks l ++ ([.op .assign, .id "append", .op .lparen] ++ (lvToks l ++ ([.op .comma, .id "tmp", .op .rparen, .op .semi])))))
    (rfl) (pieces_cons (lvP_ok hl) (pieces_cons trivial (pieces_cons (lvP_ok hl) (pieces_cons trivial pieces_nil)))) (by simp [flat])
    (by cases l <;> rfl) (fun n rest => by cases l <;> rfl)

/-! ## Lines with a type -/

theorem rd_make0 {l : LV} (hl : LVGood l) {t : GenText.Text} {ty : GTy} (ht : TT t ty) : Reads (lvText l ++ lit " = make([]" ++ t ++ lit ", 0)\n") [.assign l (.make ty (.lit 0))] :=
  Reads.line 20 (ps := [lvP l, .lit (lit " = make([]"), .sym true t (tyToks ty), .lit (lit ", 0)\n")])
    (ts := (lvToks l ++ ([.op .assign, .id "make", .op .lparen, .op .lbrack, .op .rbrack] ++ (tyToks ty ++ ([.op .comma, .int 0, .op .rparen, .op .semi])))))
    (rfl) (pieces_cons (lvP_ok hl) (pieces_cons trivial (pieces_cons (tt_ok ht) (pieces_cons trivial pieces_nil)))) (by simp [flat])
    (by cases ht <;> cases l <;> rfl) (fun n rest => by cases ht <;> cases l <;> rfl)

theorem rd_tmp {t : GenText.Text} {ty : GTy} (ht : TT t ty) : Reads (lit "var tmp " ++ t ++ lit "\n") [.varDecl "tmp" ty] :=
  Reads.line 20 (ps := [.lit (lit "var tmp "), .sym true t (tyToks ty), .lit (lit "\n")])
    (ts := ([.kw .var, .id "tmp"] ++ (tyToks ty ++ ([.op .semi]))))
    (rfl) (pieces_cons trivial (pieces_cons (tt_ok ht) (pieces_cons trivial pieces_nil))) (by simp [flat])
    (by cases ht <;> rfl) (fun n rest => by cases ht <;> rfl)

theorem rd_makeN {l : LV} (hl : LVGood l) {t : GenText.Text} {ty : GTy} (ht : TT t ty) {x : String} (hx : GoIdent x) {f : String} (hf : GoIdent f) : Reads (lvText l ++ lit " = make([]" ++ t ++ lit ", int(" ++ lit x ++ lit "." ++ lit f ++ lit "))\n") [.assign l (.make ty (.toInt (.field (.var x) f)))] :=
  Reads.line 20 (ps := [lvP l, .lit (lit " = make([]"), .sym true t (tyToks ty), .lit (lit ", int("), word x, .lit (lit "."), word f, .lit (lit "))\n")])
    (ts := (lvToks l ++ ([.op .assign, .id "make", .op .lparen, .op .lbrack, .op .rbrack] ++ (tyToks ty ++ ([.op .comma, .id "int", .op .lparen, .id x, .op .dot, .id f, .op .rparen, .op .rparen, .op .semi])))))
    (rfl) (pieces_cons (lvP_ok hl) (pieces_cons trivial (pieces_cons (tt_ok ht) (pieces_cons trivial (pieces_cons (word_ok hx) (pieces_cons trivial (pieces_cons (word_ok hf) (pieces_cons trivial pieces_nil)))))))) (by simp [flat])
    (by cases ht <;> cases l <;> rfl) (fun n rest => by cases ht <;> cases l <;> rfl)

/-! ## Lines with a length -/

theorem rd_check_num (k : Nat) : Reads (lit "if len(cur) < " ++ itoa k ++ lit " { return nil, errors.New(\"data too short\") }\n") [Gen.lengthCheck (.lit k)] :=
  Reads.line 20 (ps := [.lit (lit "if len(cur) < "), num k, .lit (lit " { return nil, errors.New(\"data too short\") }\n")])
    (ts := [.kw .if, .id "len", .op .lparen, .id "cur", .op .rparen, .op .lt, .int k, .op .lbrace, .kw .return, .id "nil", .op .comma, .id "errors", .op .dot, .id "New", .op .lparen, .str "data too short", .op .rparen, .op .rbrace, .op .semi])
    (rfl) (pieces_cons trivial (pieces_cons (num_ok k) (pieces_cons trivial pieces_nil))) (by simp [flat])
    (by rfl) (fun n rest => by rfl)

theorem rd_check_ref {x : String} (hx : GoIdent x) {f : String} (hf : GoIdent f) : Reads (lit "if len(cur) < int(" ++ lit x ++ lit "." ++ lit f ++ lit ") { return nil, errors.New(\"data too short\") }\n") [Gen.lengthCheck (.toInt (.field (.var x) f))] :=
  Reads.line 20 (ps := [.lit (lit "if len(cur) < int("), word x, .lit (lit "."), word f, .lit (lit ") { return nil, errors.New(\"data too short\") }\n")])
    (ts := [.kw .if, .id "len", .op .lparen, .id "cur", .op .rparen, .op .lt, .id "int", .op .lparen, .id x, .op .dot, .id f, .op .rparen, .op .lbrace, .kw .return, .id "nil", .op .comma, .id "errors", .op .dot, .id "New", .op .lparen, .str "data too short", .op .rparen, .op .rbrace, .op .semi])
    (rfl) (pieces_cons trivial (pieces_cons (word_ok hx) (pieces_cons trivial (pieces_cons (word_ok hf) (pieces_cons trivial pieces_nil))))) (by simp [flat])
    (by rfl) (fun n rest => by rfl)

theorem rd_save_num (k : Nat) : Reads (lit "restore := cur[len(cur)-" ++ itoa k ++ lit ":]\n") [.define "restore" (.sliceFrom Gen.cur (.sub (.len Gen.cur) (.lit k)))] :=
  Reads.line 20 (ps := [.lit (lit "restore := cur[len(cur)-"), num k, .lit (lit ":]\n")])
    (ts := [.id "restore", .op .define, .id "cur", .op .lbrack, .id "len", .op .lparen, .id "cur", .op .rparen, .op .minus, .int k, .op .colon, .op .rbrack, .op .semi])
    (rfl) (pieces_cons trivial (pieces_cons (num_ok k) (pieces_cons trivial pieces_nil))) (by simp [flat])
    (by rfl) (fun n rest => by rfl)

theorem rd_save_ref {x : String} (hx : GoIdent x) {f : String} (hf : GoIdent f) : Reads (lit "restore := cur[int(" ++ lit x ++ lit "." ++ lit f ++ lit "):]\n") [.define "restore" (.sliceFrom Gen.cur (.toInt (.field (.var x) f)))] :=
  Reads.line 20 (ps := [.lit (lit "restore := cur[int("), word x, .lit (lit "."), word f, .lit (lit "):]\n")])
    (ts := [.id "restore", .op .define, .id "cur", .op .lbrack, .id "int", .op .lparen, .id x, .op .dot, .id f, .op .rparen, .op .colon, .op .rbrack, .op .semi])
    (rfl) (pieces_cons trivial (pieces_cons (word_ok hx) (pieces_cons trivial (pieces_cons (word_ok hf) (pieces_cons trivial pieces_nil))))) (by simp [flat])
    (by rfl) (fun n rest => by rfl)

theorem rd_limit_num (k : Nat) : Reads (lit "cur = cur[:len(cur)-" ++ itoa k ++ lit "]\n") [.assign (.var "cur") (.sliceTo Gen.cur (.sub (.len Gen.cur) (.lit k)))] :=
  Reads.line 20 (ps := [.lit (lit "cur = cur[:len(cur)-"), num k, .lit (lit "]\n")])
    (ts := [.id "cur", .op .assign, .id "cur", .op .lbrack, .op .colon, .id "len", .op .lparen, .id "cur", .op .rparen, .op .minus, .int k, .op .rbrack, .op .semi])
    (rfl) (pieces_cons trivial (pieces_cons (num_ok k) (pieces_cons trivial pieces_nil))) (by simp [flat])
    (by rfl) (fun n rest => by rfl)

theorem rd_limit_ref {x : String} (hx : GoIdent x) {f : String} (hf : GoIdent f) : Reads (lit "cur = cur[:int(" ++ lit x ++ lit "." ++ lit f ++ lit ")]\n") [.assign (.var "cur") (.sliceTo Gen.cur (.toInt (.field (.var x) f)))] :=
  Reads.line 20 (ps := [.lit (lit "cur = cur[:int("), word x, .lit (lit "."), word f, .lit (lit ")]\n")])
    (ts := [.id "cur", .op .assign, .id "cur", .op .lbrack, .op .colon, .id "int", .op .lparen, .id x, .op .dot, .id f, .op .rparen, .op .rbrack, .op .semi])
    (rfl) (pieces_cons trivial (pieces_cons (word_ok hx) (pieces_cons trivial (pieces_cons (word_ok hf) (pieces_cons trivial pieces_nil))))) (by simp [flat])
    (by rfl) (fun n rest => by rfl)

end Verif.Go.Read
