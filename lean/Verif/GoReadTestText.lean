import Verif.GoReadFile
import Verif.GoReadTest
import Verif.GenTestText
/-!
# The text of tests and fuzzing functions is read back as the functions of `Verif/Effects`
-/
namespace Verif.Go.Read
open Verif Verif.Go Verif.Effects
open Verif.GenText (lit Text hexByte bytesLit join)

/-! ## Hexadecimal bytes -/

theorem hexDigit_ok : ∀ d : Fin 16, hexVal (Nat.digitChar d) = some d.val := by decide

theorem hexadecimal_snoc (ds : Text) (c : Char) : hexadecimal (ds ++ [c]) = hexadecimal ds * 16 + (hexVal c).getD 0 := by
  simp [hexadecimal]

theorem toHex_spec (n : Nat) : (∀ c ∈ Nat.toDigits 16 n, (hexVal c).isSome = true) ∧ hexadecimal (Nat.toDigits 16 n) = n ∧
    Nat.toDigits 16 n ≠ [] := by
  induction n using Nat.strongRecOn with
  | _ n ih =>
    by_cases hn : n < 16
    · rw [Nat.toDigits_of_lt_base hn]
      have := hexDigit_ok ⟨n, hn⟩
      simp only at this
      refine ⟨by simp [this], by simp [hexadecimal, this], by simp⟩
    · obtain ⟨h1, h2, h3⟩ := ih (n / 16) (by omega)
      have he : Nat.toDigits 16 n = Nat.toDigits 16 (n / 16) ++ [Nat.digitChar (n % 16)] := by
        rw [Nat.toDigits_of_base_le (by decide) (by omega)]
      have hm := hexDigit_ok ⟨n % 16, by omega⟩
      simp only at hm
      rw [he]
      refine ⟨?_, ?_, by simp⟩
      · intro d hd
        rcases List.mem_append.1 hd with hd | hd
        · exact h1 d hd
        · simp only [List.mem_singleton] at hd
          rw [hd, hm]; rfl
      · rw [hexadecimal_snoc, h2, hm]
        simp only [Option.getD_some]
        omega

theorem scan_hex (semi : Bool) : ∀ (cs w l : Text), (∀ d ∈ cs, (hexVal d).isSome = true) →
    scan (.hex w) semi (cs ++ l) = scan (.hex (w ++ cs)) semi l
  | [], w, l, _ => by simp
  | c :: cs, w, l, h => by
    have hc := h c (List.mem_cons_self ..)
    simp only [List.cons_append, scan, step, hc, if_true, List.nil_append]
    rw [scan_hex semi cs _ l (fun d hd => h d (List.mem_cons_of_mem _ hd))]
    simp

theorem hex_word {c : Char} (h : (hexVal c).isSome = true) : wordChar c = true := by
  unfold hexVal at h
  simp only [wordChar, Char.isAlphanum, Bool.or_eq_true]
  split at h
  · rename_i hd; exact .inl (.inr hd)
  · split at h
    · rename_i h'
      left; left
      simp only [Char.isAlpha, Bool.or_eq_true]
      right
      simp only [Char.isLower, Bool.and_eq_true, decide_eq_true_eq]
      exact ⟨h'.1, Nat.le_trans h'.2 (by decide)⟩
    · split at h
      · rename_i h'
        left; left
        simp only [Char.isAlpha, Bool.or_eq_true]
        left
        simp only [Char.isUpper, Bool.and_eq_true, decide_eq_true_eq]
        exact ⟨h'.1, Nat.le_trans h'.2 (by decide)⟩
      · cases h

theorem lex_hex (b : UInt8) : Lexes false (hexByte b) [.int b.toNat] := by
  obtain ⟨h1, h2, h3⟩ := toHex_spec b.toNat
  intro semi l hl
  cases l with
  | nil => simp [delims] at hl
  | cons d l =>
    simp only [delims, delim, Bool.false_or, Bool.and_eq_true, Bool.not_eq_true', decide_eq_true_eq] at hl
    have hdd : (hexVal d).isSome = false := by
      cases hb : (hexVal d).isSome with
      | false => rfl
      | true => have := hex_word hb; simp [hl.1] at this
    have hdl : letter d = false := by
      cases hb : letter d with
      | false => rfl
      | true => have := letter_word hb; simp [hl.1] at this
    have hx : scan .start semi (hexByte b ++ d :: l) = scan (.hex []) semi (Nat.toDigits 16 b.toNat ++ d :: l) := rfl
    rw [hx, scan_hex _ _ _ _ h1, List.nil_append]
    simp only [scan, step, hdd, hdl, next, cut, List.singleton_append, h2, h3]
    simp [hl.2]

theorem opens_hex (b : UInt8) : opens (hexByte b) = true := rfl

/-- Tokens of bytes with commas between them. -/
def byteToks : Bytes → List Tok
  | [] => []
  | [b] => [.int b.toNat]
  | b :: bs => .int b.toNat :: .op .comma :: byteToks bs

theorem lex_bytes : ∀ (b : UInt8) (bs : Bytes), Lexes false (join (lit ", ") ((b :: bs).map hexByte)) (byteToks (b :: bs)) ∧
    opens (join (lit ", ") ((b :: bs).map hexByte)) = true
  | b, [] => ⟨lex_hex b, opens_hex b⟩
  | b, c :: cs => by
    obtain ⟨h1, h2⟩ := lex_bytes c cs
    constructor
    · have := (lex_hex b).cat (l := lit ", ") (us := [.op .comma]) (m := .start) (s := false) rfl rfl rfl h1 h2
      simpa [join, byteToks, cut] using this
    · rfl

/-- The case of a vector. -/
def caseToks (d : Bytes) : List Tok :=
  [.op .lbrace, .id "Data", .op .colon, .op .lbrack, .op .rbrack, .id "byte", .op .lbrace] ++ byteToks d ++
    [.op .rbrace, .op .comma, .op .rbrace, .op .comma]

theorem scan_case (d : Bytes) : scan .start false (lit "{\nData: " ++ bytesLit d ++ lit ",\n},\n") = (caseToks d, .start, false) := by
  cases d with
  | nil => decide
  | cons b bs =>
    obtain ⟨h1, h2⟩ := lex_bytes b bs
    have := run_scan (ps := [.lit (lit "{\nData: []byte{"), .sym false (join (lit ", ") ((b :: bs).map hexByte)) (byteToks (b :: bs)),
      .lit (lit "},\n},\n")]) (m := .start) (semi := false) (r := (caseToks (b :: bs), .start, false))
      (pieces_cons trivial (pieces_cons ⟨h1, h2⟩ (pieces_cons trivial pieces_nil))) (by
        simp only [run, caseToks]
        rfl)
    rw [← this]
    congr 1
    simp [flat, bytesLit, lit]

/-- The cases of vectors. -/
def casesToks : List Tv.Vector → List Tok
  | [] => []
  | v :: vs => caseToks v.data ++ casesToks vs

theorem scan_cases : ∀ vs : List Tv.Vector, scan .start false (GenText.testCases vs) = (casesToks vs, .start, false)
  | [] => rfl
  | v :: vs => by
    rw [GenText.testCases, casesToks]
    exact scan_line (scan_case v.data) (scan_cases vs)

/-! ## Parsing literals -/

/-- The syntax of bytes. -/
def byteElems (d : Bytes) : List (Option String × GExpr) := d.map fun b => (none, .int b.toNat)

theorem pElems_bytes : ∀ (d : Bytes) (n : Nat) (r : List Tok),
    pElems (n + 7 + d.length) (byteToks d ++ .op .rbrace :: r) = some (byteElems d, r)
  | [], n, r => rfl
  | [b], n, r => rfl
  | b :: c :: cs, n, r => by
    have := pElems_bytes (c :: cs) n r
    have hn : n + 7 + (b :: c :: cs).length = (n + 7 + (c :: cs).length) + 1 := by simp; omega
    rw [hn]
    have he : pElem (n + 7 + (c :: cs).length) (byteToks (b :: c :: cs) ++ .op .rbrace :: r) =
        some ((none, .int b.toNat), .op .comma :: (byteToks (c :: cs) ++ .op .rbrace :: r)) := by
      have : n + 7 + (c :: cs).length = (n + (c :: cs).length) + 7 := by omega
      rw [this]
      rfl
    rw [pElems]
    · simp only [he, this, Option.map_some]
      rfl
    · intro r' h
      simp [byteToks] at h

/-- The syntax of data. -/
def dataG (d : Bytes) : GExpr := .lit (some (.slice (.name "byte"))) (byteElems d)

theorem pElems_case (d : Bytes) (n : Nat) (r : List Tok) :
    pElems (n + 12 + d.length) (.id "Data" :: .op .colon :: .op .lbrack :: .op .rbrack :: .id "byte" :: .op .lbrace ::
      (byteToks d ++ .op .rbrace :: .op .comma :: .op .rbrace :: r)) = some ([(some "Data", dataG d)], r) := by
  have h := pElems_bytes d n (.op .comma :: .op .rbrace :: r)
  rw [show n + 7 + d.length = n + 5 + d.length + 2 by omega] at h
  rw [show n + 12 + d.length = (n + 5 + d.length) + 2 + 5 by omega]
  generalize n + 5 + d.length = m at h ⊢
  have ht : pType (m + 2) (.op .lbrack :: .op .rbrack :: .id "byte" :: .op .lbrace ::
      (byteToks d ++ .op .rbrace :: .op .comma :: .op .rbrace :: r)) = some (.slice (.name "byte"), .op .lbrace ::
      (byteToks d ++ .op .rbrace :: .op .comma :: .op .rbrace :: r)) := rfl
  have hu : pUnary (m + 2 + 1) (.op .lbrack :: .op .rbrack :: .id "byte" :: .op .lbrace ::
      (byteToks d ++ .op .rbrace :: .op .comma :: .op .rbrace :: r)) = some (dataG d, .op .comma :: .op .rbrace :: r) := by
    simp only [pUnary, ht, h]
    rfl
  have hb : pBin (m + 2 + 1 + 1) 1 (.op .lbrack :: .op .rbrack :: .id "byte" :: .op .lbrace ::
      (byteToks d ++ .op .rbrace :: .op .comma :: .op .rbrace :: r)) = some (dataG d, .op .comma :: .op .rbrace :: r) := by
    simp only [pBin, hu]
    rfl
  have he : pElem (m + 6) (.id "Data" :: .op .colon :: .op .lbrack :: .op .rbrack :: .id "byte" :: .op .lbrace ::
      (byteToks d ++ .op .rbrace :: .op .comma :: .op .rbrace :: r)) = some ((some "Data", dataG d), .op .comma :: .op .rbrace :: r) := by
    simp only [pElem, pVal, hb]
    rfl
  rw [show m + 2 + 5 = (m + 6) + 1 from rfl, pElems]
  · simp only [he]
    rfl
  · intro r' h
    cases h

/-- The syntax of cases. -/
def caseElems (vs : List Tv.Vector) : List (Option String × GExpr) := vs.map fun v => (none, .lit none [(some "Data", dataG v.data)])

theorem pElems_cases : ∀ (vs : List Tv.Vector), ∃ F, ∀ n, F ≤ n → ∀ r,
    pElems n (casesToks vs ++ .op .rbrace :: r) = some (caseElems vs, r)
  | [] => ⟨1, fun n hn r => by
      obtain ⟨m, rfl⟩ := Nat.exists_eq_add_of_le' hn
      rfl⟩
  | v :: vs => by
    obtain ⟨F, h⟩ := pElems_cases vs
    refine ⟨F + v.data.length + 20, fun n hn r => ?_⟩
    obtain ⟨m, rfl⟩ := Nat.exists_eq_add_of_le' hn
    have h1 := h (m + F + v.data.length + 19) (by omega) r
    have h2 := pElems_case v.data (m + F + 5) (.op .comma :: (casesToks vs ++ .op .rbrace :: r))
    rw [show m + F + 5 + 12 + v.data.length = m + F + v.data.length + 17 by omega] at h2
    have he : pElem (m + F + v.data.length + 19) (caseToks v.data ++ casesToks vs ++ .op .rbrace :: r) =
        some ((none, .lit none [(some "Data", dataG v.data)]), .op .comma :: (casesToks vs ++ .op .rbrace :: r)) := by
      have : caseToks v.data ++ casesToks vs ++ .op .rbrace :: r = .op .lbrace :: .id "Data" :: .op .colon :: .op .lbrack ::
          .op .rbrack :: .id "byte" :: .op .lbrace ::
          (byteToks v.data ++ .op .rbrace :: .op .comma :: .op .rbrace :: .op .comma :: (casesToks vs ++ .op .rbrace :: r)) := by
        simp [caseToks]
      rw [this]
      simp only [pElem, pVal, h2]
      rfl
    rw [casesToks, show m + (F + v.data.length + 20) = (m + F + v.data.length + 19) + 1 by omega, pElems]
    · simp only [he, h1]
      rfl
    · intro r' h
      simp [caseToks] at h

/-! ## Declarations -/

/-- The text is the declarations, whatever follows. -/
def ReadsG (t : Text) (ds : List GDecl) : Prop :=
  ∃ ts, scan .start false t = (ts, .start, false) ∧ ∃ F k, ∀ n, F ≤ n → ∀ rest ds', pDecls n rest = some ds' →
    pDecls (n + k) (ts ++ rest) = some (ds ++ ds')

theorem ReadsG.nil : ReadsG [] [] := ⟨[], rfl, 0, 0, fun _ _ _ _ h => h⟩

theorem ReadsG.append {t t' : Text} {ds ds' : List GDecl} (h : ReadsG t ds) (h' : ReadsG t' ds') : ReadsG (t ++ t') (ds ++ ds') := by
  obtain ⟨ts, hs, F, k, h⟩ := h
  obtain ⟨ts', hs', F', k', h'⟩ := h'
  refine ⟨ts ++ ts', scan_line hs hs', F + F', k' + k, fun n hn rest ss'' hr => ?_⟩
  have h1 := h' n (by omega) rest _ hr
  have h2 := h (n + k') (by omega) _ _ h1
  rw [← Nat.add_assoc, List.append_assoc, List.append_assoc]
  exact h2

theorem key_lower : ∀ p ∈ keywords, ∀ c ∈ p.1, c ≠ 'P' ∧ c ≠ 'T' ∧ c ≠ 'F' := by decide +kernel

theorem ident_word {x : String} {c : Char} {cs : List Char} (hx : x.toList = c :: cs) (hc : c = 'P' ∨ c = 'T' ∨ c = 'F')
    (hcs : ∀ d ∈ cs, wordChar d = true) : GoIdent x := by
  refine ⟨⟨c, cs, hx, by rcases hc with rfl | rfl | rfl <;> decide, hcs⟩, ?_⟩
  cases hl : keywords.lookup x.toList with
  | none => rfl
  | some k =>
    have := key_lower _ (lookup_mem hl) c (by simp [hx])
    rcases hc with rfl | rfl | rfl <;> simp at this

theorem ident_chars {x : String} (h : GoIdent x) : ∀ d ∈ x.toList, wordChar d = true := by
  obtain ⟨⟨c, cs, hx, hc, hcs⟩, hk⟩ := h
  intro d hd
  rw [hx] at hd
  rcases List.mem_cons.1 hd with rfl | hd
  · exact letter_word hc
  · exact hcs d hd

theorem ident_test {T : String} (h : GoIdent T) : GoIdent ("Test" ++ T ++ "Corpus") := by
  refine ident_word (c := 'T') (cs := ['e', 's', 't'] ++ T.toList ++ "Corpus".toList) (by simp) (by simp) ?_
  intro d hd
  rcases List.mem_append.1 hd with hd | hd
  · rcases List.mem_append.1 hd with hd | hd
    · exact (by decide : ∀ d ∈ ['e', 's', 't'], wordChar d = true) d hd
    · exact ident_chars h d hd
  · exact (by decide +kernel : ∀ d ∈ "Corpus".toList, wordChar d = true) d hd

theorem ident_fuzz {T : String} (h : GoIdent T) : GoIdent ("Fuzz" ++ T) := by
  refine ident_word (c := 'F') (cs := ['u', 'z', 'z'] ++ T.toList) (by simp) (by simp) ?_
  intro d hd
  rcases List.mem_append.1 hd with hd | hd
  · exact (by decide : ∀ d ∈ ['u', 'z', 'z'], wordChar d = true) d hd
  · exact ident_chars h d hd

/-- The syntax of a test function. -/
def testG (T : String) (vs : List Tv.Vector) : GDecl :=
  .func ("Test" ++ T ++ "Corpus") [("t", .ptr (.qual "testing" "T"))] []
    [.define [.id "cases"] [.lit (some (.slice (.struct [("Data", .slice (.name "byte"))]))) (caseElems vs)],
     .range [.id "_", .id "c"] (.id "cases")
       [.define [.id "_", .id "err"] [.call (.id ("Parse" ++ T)) [.sel (.id "c") "Data"]],
        .ifS (.binary .ne (.id "err") (.id "nil")) [.expr (.call (.sel (.id "t") "Fatal") [.id "err"])]]]

/-- Tokens of a test function up to the cases. -/
def testHead (T : String) : List Tok :=
  [.kw .func, .id ("Test" ++ T ++ "Corpus"), .op .lparen, .id "t", .op .star, .id "testing", .op .dot, .id "T", .op .rparen, .op .lbrace,
   .id "cases", .op .define, .op .lbrack, .op .rbrack, .kw .struct, .op .lbrace, .id "Data", .op .lbrack, .op .rbrack, .id "byte", .op .semi,
   .op .rbrace, .op .lbrace]

/-- Tokens of a test function after the cases. -/
def testTail (T : String) : List Tok :=
  [.op .rbrace, .op .semi, .kw .for, .id "_", .op .comma, .id "c", .op .define, .kw .range, .id "cases", .op .lbrace,
   .id "_", .op .comma, .id "err", .op .define, .id ("Parse" ++ T), .op .lparen, .id "c", .op .dot, .id "Data", .op .rparen, .op .semi,
   .kw .if, .id "err", .op .ne, .id "nil", .op .lbrace, .id "t", .op .dot, .id "Fatal", .op .lparen, .id "err", .op .rparen, .op .rbrace,
   .op .semi, .op .rbrace, .op .semi, .op .rbrace, .op .semi]

theorem pSig_void {n : Nat} {r r' r'' : List Tok} {ps : List (String × GType)} {b : List GStmt}
    (h : pParams n r = some (ps, .op .lbrace :: r')) (h' : pBlock n (.op .lbrace :: r') = some (b, r'')) :
    pSig n (.op .lparen :: r) = some ((ps, [], b), r'') := by
  simp [pSig, h, h']

theorem pSig_one {n : Nat} {r r' r'' : List Tok} {x : String} {ps : List (String × GType)} {b : List GStmt}
    (h : pParams n r = some (ps, .id x :: .op .lbrace :: r')) (hn : n ≠ 0) (h' : pBlock n (.op .lbrace :: r') = some (b, r'')) :
    pSig n (.op .lparen :: r) = some ((ps, [.name x], b), r'') := by
  cases n with
  | zero => exact absurd rfl hn
  | succ n =>
    have : pType (n + 1) (.id x :: .op .lbrace :: r') = some (.name x, .op .lbrace :: r') := rfl
    simp [pSig, h, this, h']

theorem test_reads {T : String} (hT : GoIdent T) (vs : List Tv.Vector) : ReadsG (GenText.testFunc T vs) [testG T vs] := by
  have h1 := run_scan (ps := [.lit (lit "func "), word ("Test" ++ T ++ "Corpus"), .lit (lit "(t *testing.T) {\ncases := []struct{\nData []byte\n}{\n")])
    (m := .start) (semi := false) (r := (testHead T, .start, false))
    (pieces_cons trivial (pieces_cons (word_ok (ident_test hT)) (pieces_cons trivial pieces_nil))) rfl
  have h2 := scan_cases vs
  have h3 := run_scan (ps := [.lit (lit "}\nfor _, c := range cases {\n_, err := "), word ("Parse" ++ T),
      .lit (lit "(c.Data)\nif err != nil { t.Fatal(err) }\n}\n}\n\n")])
    (m := .start) (semi := false) (r := (testTail T, .start, false))
    (pieces_cons trivial (pieces_cons (word_ok (ident_ctor hT)) (pieces_cons trivial pieces_nil))) rfl
  have h4 := scan_line (scan_line h1 h2) h3
  obtain ⟨F, hF⟩ := pElems_cases vs
  refine ⟨testHead T ++ casesToks vs ++ testTail T, by rw [← h4]; congr 1; simp [GenText.testFunc, flat, lit], F + 36, 1,
    fun n hn rest ds' hr => ?_⟩
  obtain ⟨m, rfl⟩ := Nat.exists_eq_add_of_le' hn
  have hm : ∃ k, m + (F + 36) = k + 36 ∧ F ≤ k := ⟨m + F, by omega, by omega⟩
  obtain ⟨k, hk, hFk⟩ := hm
  rw [hk] at hr ⊢
  have e1 : pElems (k + 30) (casesToks vs ++ (testTail T ++ rest)) = some (caseElems vs, (testTail T).tail ++ rest) :=
    hF (k + 30) (by omega) ((testTail T).tail ++ rest)
  have e2 : pUnary (k + 31) (.op .lbrack :: .op .rbrack :: .kw .struct :: .op .lbrace :: .id "Data" :: .op .lbrack :: .op .rbrack :: .id "byte" ::
      .op .semi :: .op .rbrace :: .op .lbrace :: (casesToks vs ++ (testTail T ++ rest))) =
      some (.lit (some (.slice (.struct [("Data", .slice (.name "byte"))]))) (caseElems vs), (testTail T).tail ++ rest) := by
    have : pType (k + 30) (.op .lbrack :: .op .rbrack :: .kw .struct :: .op .lbrace :: .id "Data" :: .op .lbrack :: .op .rbrack :: .id "byte" ::
      .op .semi :: .op .rbrace :: .op .lbrace :: (casesToks vs ++ (testTail T ++ rest))) =
      some (.slice (.struct [("Data", .slice (.name "byte"))]), .op .lbrace :: (casesToks vs ++ (testTail T ++ rest))) := rfl
    simp only [pUnary, this, e1]
    rfl
  have e3 : pList (k + 33) (.op .lbrack :: .op .rbrack :: .kw .struct :: .op .lbrace :: .id "Data" :: .op .lbrack :: .op .rbrack :: .id "byte" ::
      .op .semi :: .op .rbrace :: .op .lbrace :: (casesToks vs ++ (testTail T ++ rest))) =
      some ([.lit (some (.slice (.struct [("Data", .slice (.name "byte"))]))) (caseElems vs)], (testTail T).tail ++ rest) := by
    simp only [pList, pBin, e2]
    rfl
  have e4 : pStmt (k + 34) ((testHead T).drop 10 ++ (casesToks vs ++ (testTail T ++ rest))) =
      some (.define [.id "cases"] [.lit (some (.slice (.struct [("Data", .slice (.name "byte"))]))) (caseElems vs)], (testTail T).tail ++ rest) := by
    have : pList (k + 33) ((testHead T).drop 10 ++ (casesToks vs ++ (testTail T ++ rest))) = some ([.id "cases"], (testHead T).drop 11 ++ (casesToks vs ++ (testTail T ++ rest))) := rfl
    have h' : pStmt (k + 34) ((testHead T).drop 10 ++ (casesToks vs ++ (testTail T ++ rest))) =
      pSimple (k + 33) ((testHead T).drop 10 ++ (casesToks vs ++ (testTail T ++ rest))) := rfl
    rw [h', pSimple, this]
    simp only [testHead, List.drop_succ_cons, List.drop_zero, List.cons_append, List.nil_append, e3, Option.map_some]
  have e5 : pStmts (k + 34) ((testTail T).drop 2 ++ rest) = some
      ([.range [.id "_", .id "c"] (.id "cases")
       [.define [.id "_", .id "err"] [.call (.id ("Parse" ++ T)) [.sel (.id "c") "Data"]],
        .ifS (.binary .ne (.id "err") (.id "nil")) [.expr (.call (.sel (.id "t") "Fatal") [.id "err"])]]], .op .rbrace :: .op .semi :: rest) := rfl
  have e6 : pStmts (k + 35) ((testHead T).drop 10 ++ (casesToks vs ++ (testTail T ++ rest))) = some
      ([.define [.id "cases"] [.lit (some (.slice (.struct [("Data", .slice (.name "byte"))]))) (caseElems vs)],
       .range [.id "_", .id "c"] (.id "cases")
       [.define [.id "_", .id "err"] [.call (.id ("Parse" ++ T)) [.sel (.id "c") "Data"]],
        .ifS (.binary .ne (.id "err") (.id "nil")) [.expr (.call (.sel (.id "t") "Fatal") [.id "err"])]]], .op .rbrace :: .op .semi :: rest) := by
    rw [pStmts_step rfl, e4]
    show Option.map _ (pStmts (k + 34) ((testTail T).drop 2 ++ rest)) = _
    rw [e5]
    rfl
  have e7 : pSig (k + 36) ((testHead T).drop 2 ++ (casesToks vs ++ (testTail T ++ rest))) = some
      (([("t", .ptr (.qual "testing" "T"))], [],
       [.define [.id "cases"] [.lit (some (.slice (.struct [("Data", .slice (.name "byte"))]))) (caseElems vs)],
        .range [.id "_", .id "c"] (.id "cases")
        [.define [.id "_", .id "err"] [.call (.id ("Parse" ++ T)) [.sel (.id "c") "Data"]],
         .ifS (.binary .ne (.id "err") (.id "nil")) [.expr (.call (.sel (.id "t") "Fatal") [.id "err"])]]]), .op .semi :: rest) := by
    have e8 : pBlock (k + 36) ((testHead T).drop 9 ++ (casesToks vs ++ (testTail T ++ rest))) = some
       ([.define [.id "cases"] [.lit (some (.slice (.struct [("Data", .slice (.name "byte"))]))) (caseElems vs)],
        .range [.id "_", .id "c"] (.id "cases")
        [.define [.id "_", .id "err"] [.call (.id ("Parse" ++ T)) [.sel (.id "c") "Data"]],
         .ifS (.binary .ne (.id "err") (.id "nil")) [.expr (.call (.sel (.id "t") "Fatal") [.id "err"])]]], .op .semi :: rest) := by
      show (match pStmts (k + 35) ((testHead T).drop 10 ++ (casesToks vs ++ (testTail T ++ rest))) with
        | some (ss, .op .rbrace :: r) => some (ss, r)
        | _ => none) = _
      rw [e6]
    have e9 : pParams (k + 36) ((testHead T).drop 3 ++ (casesToks vs ++ (testTail T ++ rest))) =
        some ([("t", .ptr (.qual "testing" "T"))], (testHead T).drop 9 ++ (casesToks vs ++ (testTail T ++ rest))) := rfl
    exact pSig_void e9 e8
  have e10 : testHead T ++ casesToks vs ++ testTail T ++ rest =
      .kw .func :: .id ("Test" ++ T ++ "Corpus") :: ((testHead T).drop 2 ++ (casesToks vs ++ (testTail T ++ rest))) := by
    simp [testHead]
  rw [e10, pDecls]
  simp only [e7, hr, Option.map_some]
  rfl

theorem dataOf_dataG (d : Bytes) : dataOf (dataG d) = some d := by
  simp only [dataOf, dataG, if_true]
  induction d with
  | nil => rfl
  | cons b bs ih =>
    have hb : b.toNat < 256 := b.toNat_lt
    simp only [byteElems, List.map_cons, List.mapM_cons] at ih ⊢
    rw [ih]
    simp [hb]

theorem mapM_caseOf : ∀ vs : List Tv.Vector, (caseElems vs).mapM (caseOf "Data") = some (vs.map (·.data))
  | [] => rfl
  | v :: vs => by
    have := mapM_caseOf vs
    simp only [caseElems, List.map_cons, List.mapM_cons] at this ⊢
    rw [this]
    simp [caseOf, dataOf_dataG]

theorem parse_ne {T x : String} (h : ∀ c cs, x.toList = c :: cs → c ≠ 'P') : "Parse" ++ T ≠ x := by
  rintro rfl
  exact h 'P' (['a', 'r', 's', 'e'] ++ T.toList) (by simp) rfl

theorem testOf_testG (T : String) (vs : List Tv.Vector) :
    testOf (testG T vs) = some ⟨"Test" ++ T ++ "Corpus", vs.map (·.data), "Parse" ++ T⟩ := by
  have h : ["t", "cases", "c", "err", "Parse" ++ T, "nil", "_", "testing", "byte"].Nodup := by
    have h1 : ∀ x ∈ ["t", "cases", "c", "err", "nil", "_", "testing", "byte"], x ≠ "Parse" ++ T := by
      intro x hx
      refine Ne.symm (parse_ne fun c cs hc => ?_)
      exact (by decide +kernel : ∀ x ∈ ["t", "cases", "c", "err", "nil", "_", "testing", "byte"], x.toList.head? ≠ some 'P') x hx ∘ (by
        rintro rfl; rw [hc]; rfl)
    have h2 : ["t", "cases", "c", "err"].Nodup := by decide
    have h3 : ["nil", "_", "testing", "byte"].Nodup := by decide
    simp only [List.mem_cons, List.not_mem_nil, or_false, forall_eq_or_imp, forall_eq] at h1
    obtain ⟨a1, a2, a3, a4, a5, a6, a7, a8⟩ := h1
    simp only [List.nodup_cons, List.mem_cons, List.not_mem_nil, or_false, not_or, not_false_eq_true, List.nodup_nil, and_true]
    simp [a1, a2, a3, a4, Ne.symm a5, Ne.symm a6, Ne.symm a7, Ne.symm a8]
  simp only [testG, testOf, true_and, h, if_true, mapM_caseOf]
  rfl

theorem testFuncs_reads {nm : String → String} : ∀ {c : Tv.Corpus}, (∀ s ∈ c, GoIdent (nm s.type)) →
    ∃ ds, ReadsG (GenText.testFuncs nm c) ds ∧ ds.mapM testOf = some (corpusTests nm c)
  | [], _ => ⟨[], .nil, rfl⟩
  | s :: ss, h => by
    obtain ⟨ds, h1, h2⟩ := testFuncs_reads (fun s' hs => h s' (List.mem_cons_of_mem _ hs))
    by_cases hc : constrained s.vectors = true
    · refine ⟨ds, ?_, ?_⟩
      · simpa [GenText.testFuncs, hc] using h1
      · simpa [corpusTests, hc] using h2
    · refine ⟨testG (nm s.type) s.vectors :: ds, ?_, ?_⟩
      · have := (test_reads (h s (List.mem_cons_self ..)) s.vectors).append h1
        simpa [GenText.testFuncs, hc] using this
      · simp only [corpusTests, hc]
        rw [List.mapM_cons, testOf_testG, h2]
        rfl

/-! ## Fuzzing functions -/

/-- The syntax of a fuzzing function. -/
def fuzzG (T : String) : GDecl :=
  .func ("Fuzz" ++ T) [("data", .slice (.name "byte"))] [.name "int"]
    [.define [.id "_", .id "err"] [.call (.id ("Parse" ++ T)) [.id "data"]],
     .ifS (.binary .ne (.id "err") (.id "nil")) [.ret [.int 0]],
     .ret [.int 1]]

theorem fuzz_reads {T : String} (hT : GoIdent T) : ReadsG (GenText.fuzzFunc T) [fuzzG T] := by
  have h1 := run_scan (ps := [.lit (lit "func "), word ("Fuzz" ++ T), .lit (lit "(data []byte) int {\n_, err := "), word ("Parse" ++ T),
      .lit (lit "(data)\nif err != nil { return 0 }\nreturn 1}\n\n")])
    (m := .start) (semi := false) (r := ([.kw .func, .id ("Fuzz" ++ T), .op .lparen, .id "data", .op .lbrack, .op .rbrack, .id "byte", .op .rparen,
      .id "int", .op .lbrace, .id "_", .op .comma, .id "err", .op .define, .id ("Parse" ++ T), .op .lparen, .id "data", .op .rparen, .op .semi,
      .kw .if, .id "err", .op .ne, .id "nil", .op .lbrace, .kw .return, .int 0, .op .rbrace, .op .semi, .kw .return, .int 1, .op .rbrace,
      .op .semi], .start, false))
    (pieces_cons trivial (pieces_cons (word_ok (ident_fuzz hT)) (pieces_cons trivial (pieces_cons (word_ok (ident_ctor hT)) (pieces_cons trivial pieces_nil))))) rfl
  refine ⟨_, (by rw [← h1]; congr 1; simp [GenText.fuzzFunc, flat, lit] : scan .start false (GenText.fuzzFunc T) = (_, _, _)), 30, 1,
    fun n hn rest ds' hr => ?_⟩
  obtain ⟨k, rfl⟩ := Nat.exists_eq_add_of_le' hn
  have h2 : pSig (k + 30) ([.op .lparen, .id "data", .op .lbrack, .op .rbrack, .id "byte", .op .rparen,
      .id "int", .op .lbrace, .id "_", .op .comma, .id "err", .op .define, .id ("Parse" ++ T), .op .lparen, .id "data", .op .rparen, .op .semi,
      .kw .if, .id "err", .op .ne, .id "nil", .op .lbrace, .kw .return, .int 0, .op .rbrace, .op .semi, .kw .return, .int 1, .op .rbrace,
      .op .semi] ++ rest) = some (([("data", .slice (.name "byte"))], [.name "int"],
    [.define [.id "_", .id "err"] [.call (.id ("Parse" ++ T)) [.id "data"]],
     .ifS (.binary .ne (.id "err") (.id "nil")) [.ret [.int 0]],
     .ret [.int 1]]), .op .semi :: rest) := rfl
  simp only [List.cons_append, List.nil_append] at h2 ⊢
  rw [pDecls]
  simp only [h2, hr, Option.map_some]
  rfl

theorem fuzzOf_fuzzG (T : String) : fuzzOf (fuzzG T) = some ⟨"Fuzz" ++ T, "Parse" ++ T⟩ := by
  have h : ["data", "err", "Parse" ++ T, "nil", "_"].Nodup := by
    have h1 : ∀ x ∈ ["data", "err", "nil", "_"], x ≠ "Parse" ++ T := by
      intro x hx
      refine Ne.symm (parse_ne fun c cs hc => ?_)
      exact (by decide +kernel : ∀ x ∈ ["data", "err", "nil", "_"], x.toList.head? ≠ some 'P') x hx ∘ (by
        rintro rfl; rw [hc]; rfl)
    simp only [List.mem_cons, List.not_mem_nil, or_false, forall_eq_or_imp, forall_eq] at h1
    obtain ⟨a1, a2, a3, a4⟩ := h1
    simp only [List.nodup_cons, List.mem_cons, List.not_mem_nil, or_false, not_or, not_false_eq_true, List.nodup_nil, and_true]
    simp [a1, a2, Ne.symm a3, Ne.symm a4]
  simp only [fuzzG, fuzzOf, true_and, h, if_true]

theorem fuzzFuncs_reads {nm : String → String} : ∀ {c : Tv.Corpus}, (∀ s ∈ c, GoIdent (nm s.type)) →
    ∃ ds, ReadsG (GenText.fuzzFuncs nm c) ds ∧ ds.mapM fuzzOf = some (fuzzers nm c)
  | [], _ => ⟨[], .nil, rfl⟩
  | s :: ss, h => by
    obtain ⟨ds, h1, h2⟩ := fuzzFuncs_reads (fun s' hs => h s' (List.mem_cons_of_mem _ hs))
    by_cases hc : constrained s.vectors = true
    · refine ⟨ds, ?_, ?_⟩
      · simpa [GenText.fuzzFuncs, hc] using h1
      · simpa [fuzzers, hc] using h2
    · refine ⟨fuzzG (nm s.type) :: ds, ?_, ?_⟩
      · have := (fuzz_reads (h s (List.mem_cons_self ..))).append h1
        simpa [GenText.fuzzFuncs, hc] using this
      · simp only [fuzzers, hc]
        rw [List.mapM_cons, fuzzOf_fuzzG, h2]
        rfl

/-! ## Files -/

theorem header_scan {pkg : String} (hp : GoIdent pkg) :
    scan .start false (lit "package " ++ lit pkg ++ lit "\n\n") = ([.kw .package, .id pkg, .op .semi], .start, false) := by
  have := run_scan (ps := [.lit (lit "package "), word pkg, .lit (lit "\n\n")]) (m := .start) (semi := false)
    (r := ([.kw .package, .id pkg, .op .semi], .start, false))
    (pieces_cons trivial (pieces_cons (word_ok hp) (pieces_cons trivial pieces_nil))) rfl
  simpa [flat, lit] using this

/-- Comments, the package clause and declarations. -/
theorem decls_read {pkg : String} {t u : Text} {ds : List GDecl} (hp : GoIdent pkg) (hu : scan .start false u = ([], .start, false))
    (h : ReadsG t ds) : ∃ F ts, tokens (u ++ (lit "package " ++ lit pkg ++ lit "\n\n") ++ t) = some ts ∧
      ∀ n, F ≤ n → pFile n ts = some (pkg, ds) := by
  obtain ⟨ts, hs, F, k, h⟩ := h
  have h2 := scan_line (scan_line hu (header_scan hp)) hs
  refine ⟨F + k + 1, .kw .package :: .id pkg :: .op .semi :: ts, by rw [tokens, h2]; simp [cut], fun n hn => ?_⟩
  have h0 : pDecls (n - k) [] = some [] := by
    obtain ⟨m, hm⟩ := Nat.exists_eq_add_of_le' (show 1 ≤ n - k by omega)
    rw [hm]; rfl
  have h3 := h _ (by omega) _ _ h0
  rw [show n - k + k = n by omega, List.append_nil, List.append_nil] at h3
  simp [pFile, h3]

theorem tests_read {pkg : String} {nm : String → String} {c : Tv.Corpus} (hp : GoIdent pkg) (hc : ∀ s ∈ c, GoIdent (nm s.type)) :
    ∃ F, ∀ n, F ≤ n → readTests n (GenText.corpusTests pkg nm c) = some (pkg, corpusTests nm c) := by
  obtain ⟨ds, h1, h2⟩ := testFuncs_reads hc
  obtain ⟨F, ts, h3, h4⟩ := decls_read (u := lit "// Code generated by trunnel. DO NOT EDIT.\n\n") hp (by decide +kernel) h1
  refine ⟨F, fun n hn => ?_⟩
  have h3' : tokens (GenText.corpusTests pkg nm c) = some ts := h3
  simp [readTests, h3', h4 n hn, h2]

theorem fuzz_read {pkg : String} {nm : String → String} {c : Tv.Corpus} (hp : GoIdent pkg) (hc : ∀ s ∈ c, GoIdent (nm s.type)) :
    ∃ F, ∀ n, F ≤ n → readFuzz n (GenText.fuzzers pkg nm c) = some (pkg, fuzzers nm c) := by
  obtain ⟨ds, h1, h2⟩ := fuzzFuncs_reads hc
  obtain ⟨F, ts, h3, h4⟩ := decls_read (u := lit "// Code generated by trunnel. DO NOT EDIT.\n\n" ++ lit "// +build gofuzz\n\n") hp
    (by decide +kernel) h1
  refine ⟨F, fun n hn => ?_⟩
  have h3' : tokens (GenText.fuzzers pkg nm c) = some ts := h3
  simp [readFuzz, h3', h4 n hn, h2]

/-! ## Build constraints -/

theorem lines_step {l r : Text} (h : '\n' ∉ l) : lines (l ++ '\n' :: r) = l :: lines r := by
  induction l with
  | nil => simp [lines]
  | cons c cs ih =>
    simp only [List.mem_cons, not_or] at h
    have := ih h.2
    simp [lines, Ne.symm h.1, this]

theorem lines_head {c : Char} (l : Text) (h : c ≠ '\n') : ∃ m ls, lines (c :: l) = (c :: m) :: ls := by
  simp only [lines, h, if_false]
  cases lines l with
  | nil => exact ⟨[], [], rfl⟩
  | cons m ls => exact ⟨m, ls, rfl⟩

theorem package_lines (l : Text) : (lines (lit "package " ++ l)).takeWhile topLine = [] := by
  obtain ⟨m, ls, h⟩ := lines_head (c := 'p') (['a', 'c', 'k', 'a', 'g', 'e', ' '] ++ l) (by decide)
  have : lit "package " ++ l = 'p' :: (['a', 'c', 'k', 'a', 'g', 'e', ' '] ++ l) := by simp [lit]
  rw [this, h]
  rfl

theorem header_lines (l : Text) : lines (lit "// Code generated by trunnel. DO NOT EDIT.\n\n" ++ l) =
    lit "// Code generated by trunnel. DO NOT EDIT." :: [] :: lines l := by
  have : lit "// Code generated by trunnel. DO NOT EDIT.\n\n" ++ l =
      lit "// Code generated by trunnel. DO NOT EDIT." ++ '\n' :: ([] ++ '\n' :: l) := by simp [lit]
  rw [this, lines_step (by decide +kernel), lines_step (by simp)]

theorem build_lines (l : Text) : lines (lit "// +build gofuzz\n\n" ++ l) = lit "// +build gofuzz" :: [] :: lines l := by
  have : lit "// +build gofuzz\n\n" ++ l = lit "// +build gofuzz" ++ '\n' :: ([] ++ '\n' :: l) := by simp [lit]
  rw [this, lines_step (by decide +kernel), lines_step (by simp)]

theorem buildLines_header {pkg : String} (t : Text) : buildLines (GenText.header pkg ++ t) = [] := by
  simp only [buildLines, GenText.header, List.append_assoc, header_lines]
  rw [List.takeWhile_cons_of_pos (by decide +kernel), List.takeWhile_cons_of_pos (by decide +kernel), package_lines]
  decide +kernel

theorem buildLines_fuzz {pkg : String} {nm : String → String} {c : Tv.Corpus} :
    buildLines (GenText.fuzzers pkg nm c) = [lit "gofuzz"] := by
  simp only [buildLines, GenText.fuzzers, List.append_assoc, header_lines, build_lines]
  rw [List.takeWhile_cons_of_pos (by decide +kernel), List.takeWhile_cons_of_pos (by decide +kernel),
    List.takeWhile_cons_of_pos (by decide +kernel), List.takeWhile_cons_of_pos (by decide +kernel), package_lines]
  decide +kernel

end Verif.Go.Read
