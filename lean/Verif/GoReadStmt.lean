import Verif.GoReadLex
/-!
# Printed statements are read back as the statements of the model
-/
namespace Verif.Go.Read
open Verif Verif.Go Verif.GenText

/-- A statement, read and taken to `Verif/GoSyntax`. -/
def eStmt (n : Nat) (ts : List Tok) : Option (Stmt × List Tok) :=
  (pStmt n ts).bind fun p => (stmtOf p.1).map fun s => (s, p.2)

/-- Statements, read and taken to `Verif/GoSyntax`. -/
def eStmts (n : Nat) (ts : List Tok) : Option (List Stmt × List Tok) :=
  (pStmts n ts).bind fun p => (stmtsOf p.1).map fun s => (s, p.2)

/-- A block, read and taken to `Verif/GoSyntax`. -/
def eBlock (n : Nat) (ts : List Tok) : Option (List Stmt × List Tok) :=
  (pBlock n ts).bind fun p => (stmtsOf p.1).map fun s => (s, p.2)

/-- Clauses, read and taken to `Verif/GoSyntax`. -/
def eClauses (n : Nat) (ts : List Tok) : Option (List (Option Expr × List Stmt) × List Tok) :=
  (pClauses n ts).bind fun p => (clausesOf p.1).map fun s => (s, p.2)

/-- The tokens are the statements, whatever follows. -/
def SL (ts : List Tok) (ss : List Stmt) : Prop :=
  ∃ F k, ∀ n, F ≤ n → ∀ rest ss' rest', eStmts n rest = some (ss', rest') →
    eStmts (n + k) (ts ++ rest) = some (ss ++ ss', rest')

/-- The text is the statements. -/
def Reads (t : Text) (ss : List Stmt) : Prop := ∃ ts, scan .start false t = (ts, .start, false) ∧ SL ts ss

theorem SL.nil : SL [] [] := ⟨0, 0, fun _ _ _ _ _ h => h⟩

theorem SL.append {ts ts' : List Tok} {ss ss' : List Stmt} (h : SL ts ss) (h' : SL ts' ss') : SL (ts ++ ts') (ss ++ ss') := by
  obtain ⟨F, k, h⟩ := h
  obtain ⟨F', k', h'⟩ := h'
  refine ⟨F + F', k' + k, fun n hn rest ss'' rest' hr => ?_⟩
  have h1 := h' n (by omega) rest _ _ hr
  have h2 := h (n + k') (by omega) _ _ _ h1
  rw [← Nat.add_assoc, List.append_assoc, List.append_assoc]
  exact h2

theorem Reads.nil : Reads [] [] := ⟨[], rfl, SL.nil⟩

theorem scan_line {t t' : Text} {ts ts' : List Tok} {r : Mode × Bool} (h : scan .start false t = (ts, .start, false))
    (h' : scan .start false t' = (ts', r)) : scan .start false (t ++ t') = (ts ++ ts', r) := by
  rw [scan_append, h]; simp only; rw [h']

theorem Reads.append {t t' : Text} {ss ss' : List Stmt} (h : Reads t ss) (h' : Reads t' ss') : Reads (t ++ t') (ss ++ ss') := by
  obtain ⟨ts, h, hs⟩ := h
  obtain ⟨ts', h', hs'⟩ := h'
  exact ⟨ts ++ ts', scan_line h h', hs.append hs'⟩

/-- Tokens that start a statement. -/
def starter : List Tok → Bool
  | .op .rbrace :: _ | .kw .case :: _ | .kw .default :: _ | .op .semi :: _ | [] => false
  | _ => true

theorem pStmts_step {n : Nat} {ts : List Tok} (h : starter ts = true) :
    pStmts (n + 1) ts =
      match pStmt n ts with
      | some (s, .op .semi :: r) => (pStmts n r).map fun p => (s :: p.1, p.2)
      | some (s, .op .rbrace :: r) => some ([s], .op .rbrace :: r)
      | _ => none := by
  simp only [pStmts]
  split
  · simp [starter] at h
  · simp [starter] at h
  · simp [starter] at h
  · simp [starter] at h
  · rfl

theorem eStmts_cons {n : Nat} {ts r rest' : List Tok} {s : Stmt} {ss : List Stmt} (h : starter ts = true)
    (h1 : eStmt n ts = some (s, .op .semi :: r)) (h2 : eStmts n r = some (ss, rest')) :
    eStmts (n + 1) ts = some (s :: ss, rest') := by
  simp only [eStmt, Option.bind_eq_some_iff, Option.map_eq_some_iff, Prod.mk.injEq, Prod.exists] at h1
  obtain ⟨g, r1, hp, s1, hs, rfl, rfl⟩ := h1
  simp only [eStmts, Option.bind_eq_some_iff, Option.map_eq_some_iff, Prod.mk.injEq, Prod.exists] at h2
  obtain ⟨gs, r2, hp2, ss2, hs2, rfl, rfl⟩ := h2
  simp only [eStmts, pStmts_step h, hp, hp2, Option.map_some, Option.bind_some, stmtsOf, hs, hs2]
  rfl

theorem SL.one {ts : List Tok} {s : Stmt} (F : Nat) (hs : starter ts = true)
    (h : ∀ n rest, F ≤ n → eStmt n (ts ++ rest) = some (s, .op .semi :: rest)) : SL ts [s] := by
  refine ⟨F, 1, fun n hn rest ss' rest' hr => ?_⟩
  refine eStmts_cons ?_ (h n rest hn) hr
  cases ts with
  | nil => simp [starter] at hs
  | cons t ts => cases t <;> try (rename_i o; cases o) <;> simp_all [starter]

/-- A line that is one statement. -/
theorem Reads.line {t : Text} {s : Stmt} {ts : List Tok} (F : Nat) {ps : List Piece} (hr : run none .start false ps = some (ts, .start, false))
    (hps : ∀ p ∈ ps, p.OK) (ht : t = flat ps) (hs : starter ts = true)
    (h : ∀ n rest, eStmt (n + F) (ts ++ rest) = some (s, .op .semi :: rest)) : Reads t [s] := by
  refine ⟨ts, by rw [ht]; exact run_scan hps hr, SL.one F hs fun n rest hn => ?_⟩
  obtain ⟨m, rfl⟩ := Nat.exists_eq_add_of_le' hn
  exact h m rest

theorem SL.block {ts : List Tok} {ss : List Stmt} (h : SL ts ss) : ∃ F, ∀ n, F ≤ n → ∀ rest,
    eBlock n (.op .lbrace :: (ts ++ .op .rbrace :: rest)) = some (ss, rest) := by
  obtain ⟨F, k, h⟩ := h
  refine ⟨F + k + 2, fun n hn rest => ?_⟩
  obtain ⟨m, rfl⟩ := Nat.exists_eq_add_of_le' hn
  have h0 : eStmts (m + 1 + F) (.op .rbrace :: rest) = some ([], .op .rbrace :: rest) := by
    have : m + 1 + F = (m + F) + 1 := by omega
    rw [this]; rfl
  have h1 := h _ (by omega) _ _ _ h0
  simp only [eStmts, Option.bind_eq_some_iff, Option.map_eq_some_iff, Prod.mk.injEq, Prod.exists] at h1
  obtain ⟨gs, r, hp, ss', hs, rfl, rfl⟩ := h1
  have hn' : m + (F + k + 2) = (m + 1 + F + k) + 1 := by omega
  rw [hn']
  simp only [eBlock, pBlock, hp, Option.bind_some, hs, Option.map_some]
  simp

theorem lit_ok (l : Text) : (Piece.lit l).OK := trivial

theorem eStmt_block {n : Nat} {r rest : List Tok} {ss : List Stmt} (h : eBlock n (.op .lbrace :: r) = some (ss, rest)) :
    eStmt (n + 1) (.op .lbrace :: r) = some (.block ss, rest) := by
  simp only [eBlock, Option.bind_eq_some_iff, Option.map_eq_some_iff, Prod.mk.injEq, Prod.exists] at h
  obtain ⟨gs, r', hp, ss', hs, rfl, rfl⟩ := h
  simp only [eStmt, pStmt, hp, Option.map_some, Option.bind_some, stmtOf, hs]

/-- `{ … }` -/
theorem Reads.block {t : Text} {ss : List Stmt} (h : Reads t ss) : Reads (lit "{\n" ++ t ++ lit "}\n") [.block ss] := by
  obtain ⟨ts, hs, hp⟩ := h
  obtain ⟨F, hb⟩ := hp.block
  refine ⟨[.op .lbrace] ++ (ts ++ [.op .rbrace, .op .semi]), ?_, SL.one (F + 1) rfl fun n rest hn => ?_⟩
  · rw [List.append_assoc]
    exact scan_line (by decide) (scan_line hs (by decide))
  · obtain ⟨m, rfl⟩ := Nat.exists_eq_add_of_le' hn
    have := hb (m + F) (by omega) (.op .semi :: rest)
    refine eStmt_block ?_
    simpa using this

/-- A statement with a block: its head ends with `{` and the line. -/
theorem Reads.head {t u : Text} {hd : List Tok} {s : Stmt} {ss : List Stmt} (F : Nat)
    (hh : scan .start false t = (hd ++ [.op .lbrace], .start, false)) (hs : starter hd = true) (h : Reads u ss)
    (he : ∀ n gs r rest, F ≤ n → pBlock n (.op .lbrace :: r) = some (gs, rest) → stmtsOf gs = some ss →
      eStmt (n + 1) (hd ++ .op .lbrace :: r) = some (s, rest)) :
    Reads (t ++ u ++ lit "}\n") [s] := by
  obtain ⟨ts, hu, hp⟩ := h
  obtain ⟨G, hb⟩ := hp.block
  refine ⟨hd ++ [.op .lbrace] ++ (ts ++ [.op .rbrace, .op .semi]), ?_, SL.one (G + F + 1) ?_ fun n rest hn => ?_⟩
  · rw [List.append_assoc]
    exact scan_line hh (scan_line hu (by decide))
  · cases hd with
    | nil => simp [starter] at hs
    | cons t ts => cases t <;> try (rename_i o; cases o) <;> simp_all [starter]
  · obtain ⟨m, rfl⟩ := Nat.exists_eq_add_of_le' hn
    have h1 := hb (m + G + F) (by omega) (.op .semi :: rest)
    simp only [eBlock, Option.bind_eq_some_iff, Option.map_eq_some_iff, Prod.mk.injEq, Prod.exists] at h1
    obtain ⟨gs, r, hp, ss', hs', rfl, rfl⟩ := h1
    have h2 := he _ _ _ _ (by omega) hp hs'
    simpa [Nat.add_assoc] using h2

/-! ## Locations -/

/-- The names are identifiers. -/
def LVGood : LV → Prop
  | .var x => GoIdent x
  | .field x f => GoIdent x ∧ GoIdent f
  | .index x f i => GoIdent x ∧ GoIdent f ∧ GoIdent i

/-- The text of a location. -/
def lvText : LV → Text
  | .var x => lit x
  | .field x f => lit x ++ lit "." ++ lit f
  | .index x f i => lit x ++ lit "." ++ lit f ++ lit "[" ++ lit i ++ lit "]"

/-- The tokens of a location. -/
def lvToks : LV → List Tok
  | .var x => [.id x]
  | .field x f => [.id x, .op .dot, .id f]
  | .index x f i => [.id x, .op .dot, .id f, .op .lbrack, .id i, .op .rbrack]

/-- The syntax of a location. -/
def lvG : LV → GExpr
  | .var x => .id x
  | .field x f => .sel (.id x) f
  | .index x f i => .index (.sel (.id x) f) (.id i)

theorem pieces_append {a b : List Piece} (ha : ∀ p ∈ a, p.OK) (hb : ∀ p ∈ b, p.OK) : ∀ p ∈ a ++ b, p.OK := by
  intro p hp
  rcases List.mem_append.1 hp with h | h
  · exact ha p h
  · exact hb p h

theorem pieces_cons {a : Piece} {b : List Piece} (ha : a.OK) (hb : ∀ p ∈ b, p.OK) : ∀ p ∈ a :: b, p.OK := by
  intro p hp
  rcases List.mem_cons.1 hp with rfl | h
  · exact ha
  · exact hb p h

theorem pieces_nil : ∀ p ∈ ([] : List Piece), p.OK := by simp

end Verif.Go.Read
