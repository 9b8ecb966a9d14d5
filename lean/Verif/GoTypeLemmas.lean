import Verif.GoTypeUsed
import Verif.Check
import Verif.RefineProg
/-!
# The emitted code obeys the scope and type rules
-/
set_option linter.unusedSimpArgs false
set_option linter.unusedVariables false
namespace Verif.Refine
open Verif Verif.Ast Verif.Go Verif.Gen Verif.Wire Verif.Spec Verif.Inspect

/-! ## Conditions on the source -/

/-- Integers that are values of the Go type of a field. -/
def FitsTy : Ty → Int → Prop
  | .base (.int t), x => 0 ≤ x ∧ x < 2 ^ t.size
  | .base .char, x => 0 ≤ x ∧ x < 2 ^ 8
  | .ptr, x => -2 ^ 63 ≤ x ∧ x < 2 ^ 63
  | _, _ => False

/-- The bounds written in a list are values of type `t`. -/
def ListFits (Γ : Fmt) (t : Ty) (l : IntegerList) : Prop :=
  ∀ r ∈ l.ranges, ∀ p, bounds Γ.K r = some p → FitsTy t p.1 ∧ FitsTy t p.2

/-- The bounds in a constraint are values of the type constrained. -/
def BaseFits (Γ : Fmt) : Base → Prop
  | .int t => ∀ l, t.constraint = some l → ListFits Γ (.base (.int t)) l
  | _ => True

/-- Element type of an array, or the type itself. -/
def tyBase : Ty → Option Base
  | .base b => some b
  | .fixedArray b _ => some b
  | .varArray b _ => some b
  | _ => none

/-- Fields a reference can name. -/
def refFields (Γ : Fmt) (s : Struct) (r : IDRef) : List Field :=
  (if r.scope = "" then fieldsOf s.ms else
    match Γ.contexts r.scope with
    | some C => C.members
    | none => []).filter (fun f => f.name = r.name)

/-- A union has at most one default case, and the bounds in its cases are values of the tag's type. -/
def UnionFits (Γ : Fmt) (s : Struct) (u : UnionMember) : Prop :=
  (u.cases.filter (fun c => c.case.isNone)).length ≤ 1 ∧
  ∀ c ∈ u.cases, ∀ l, c.case = some l → ∀ f ∈ refFields Γ s u.tag, ListFits Γ f.type l

/-- A member's integers fit. -/
def MemberFits (Γ : Fmt) (s : Struct) : Member → Prop
  | .leaf _ => True
  | .union u => UnionFits Γ s u

/-- A struct's integers fit its types. -/
structure StructFits (Γ : Fmt) (s : Struct) : Prop where
  fields : ∀ f ∈ fieldsOf s.ms, ∀ b, tyBase f.type = some b → BaseFits Γ b
  unions : ∀ m ∈ s.ms, MemberFits Γ s m

/-! ## Facts about the checker -/

variable {P : Sig} {R : XT}

theorem guardT_eq {α : Type} {c : Bool} {a : Option α} {x : α} : guardT c a = some x ↔ c = true ∧ a = some x := by
  cases c <;> simp [guardT]

theorem chks_append {a b : List Stmt} {s : Scope} : chks P R (a ++ b) s = (chks P R a s).bind (chks P R b) := by
  induction a generalizing s with
  | nil => simp [chks]
  | cons x a ih =>
    simp only [List.cons_append, chks]
    cases chk P R x s <;> simp [ih]

theorem chks_cons {a : Stmt} {b : List Stmt} {s s' : Scope} (h : chk P R a s = some s') :
    chks P R (a :: b) s = chks P R b s' := by simp [chks, h]

theorem bind_same (E : TEnv) {x : String} (t : XT) (h : x ≠ "_") : E.bind x t x = some t := by simp [TEnv.bind, h]

theorem bind_ne (E : TEnv) {x y : String} (t : XT) (h : y ≠ x) : E.bind x t y = E y := by simp [TEnv.bind, h]

/-- Names the emitted code declares in nested blocks. -/
abbrev inner : List String := ["restore", "idx", "tmp", "err", "i"]

/-- What the environment inside a `Parse` method of struct `s` provides. -/
structure Inv (P : Sig) (Γ : Fmt) (s : Struct) (E : TEnv) : Prop where
  cur : E "cur" = some .bytes
  data : E "data" = some .bytes
  recv : E (firstLetter s) = some (.ty (.ptr (Γ.nm s.name)))
  ctx : ∀ c ∈ s.contexts, E c = some (.named (Γ.nm c))
  free : ∀ b ∈ builtins, E b = none
  types : ∀ T, (P.types.lookup T).isSome = true → E T = none

/-- What the package-level declarations provide. -/
structure SigOK (g : Cfg) (Γ : Fmt) (P : Sig) : Prop where
  hK : Γ.K = g.res.constant
  hN : Γ.nm = g.nm
  hS : Γ.structs = g.res.struct
  fld : ∀ n s, Γ.structs n = some s → s.extern = false → ∀ f ∈ fieldsOf s.ms,
    ∃ G, tipe g f.type = .ok G ∧ fieldTy P (Γ.nm n) (Γ.nm f.name) = some (.ty (norm G))
  ctxFld : ∀ c C, Γ.contexts c = some C → ∀ f ∈ C.members,
    ∃ G, tipe g f.type = .ok G ∧ fieldTy P (Γ.nm c) (Γ.nm f.name) = some (.ty (norm G))
  known : ∀ n s, Γ.structs n = some s → (P.types.lookup (Γ.nm n)).isSome = true
  call : ∀ n s, Γ.structs n = some s → P.parse.lookup (Γ.nm n) = some (s.contexts.map Γ.nm)
  inner : ∀ T ∈ inner, (P.types.lookup T).isSome = false

variable {g : Cfg} {Γ : Fmt} {s : Struct} {E : TEnv} {recv : String}

theorem Inv.bind (I : Inv P Γ s E) (hok : StructOK Γ s) (hs : SigOK g Γ P) {x : String} (hx : x ∈ ["restore", "idx", "tmp", "err"]) (t : XT) :
    Inv P Γ s (E.bind x t) := by
  have hr : x ∈ reserved := by
    simp only [List.mem_cons, List.not_mem_nil, or_false] at hx
    rcases hx with rfl | rfl | rfl | rfl <;> decide
  have hin : x ∈ inner := by
    simp only [List.mem_cons, List.not_mem_nil, or_false] at hx ⊢
    tauto
  refine ⟨?_, ?_, ?_, ?_, ?_, ?_⟩
  · rw [bind_ne _ _ (by rintro rfl; revert hx; decide)]; exact I.cur
  · rw [bind_ne _ _ (by rintro rfl; revert hx; decide)]; exact I.data
  · rw [bind_ne _ _ (by intro h; exact hok.recv (h ▸ hr))]; exact I.recv
  · intro c hc
    rw [bind_ne _ _ (by intro h; exact (hok.ctxs c hc).1 (h ▸ hr))]; exact I.ctx c hc
  · intro b hb
    rw [bind_ne _ _ (by
      rintro rfl
      simp only [List.mem_cons, List.not_mem_nil, or_false] at hx
      rcases hx with rfl | rfl | rfl | rfl <;> revert hb <;> decide)]
    exact I.free b hb
  · intro T hT
    rw [bind_ne _ _ (by rintro rfl; rw [hs.inner _ hin] at hT; cases hT)]
    exact I.types T hT

/-! ## References -/

theorem tipe_intLike {t : Ty} {G : GTy} (h : tipe g t = .ok G) (hi : IntLike t) : isInt (norm G) = true ∧
    ∀ x, FitsTy t x → fits x (norm G) = true := by
  cases t with
  | base b =>
    cases b with
    | int t =>
      cases h
      rcases hi with h | h | h | h <;> simp [tipeBase, norm, isInt, fits, FitsTy, h]
    | char => cases h; simp [tipeBase, norm, isInt, fits, FitsTy]
    | struct n => exact hi.elim
  | ptr => cases h; simp [norm, isInt, fits, FitsTy]
  | nulterm => exact hi.elim
  | fixedArray b n => exact hi.elim
  | varArray b c => exact hi.elim

theorem ref_typed (hs : SigOK g Γ P) (I : Inv P Γ s E) (hn : Γ.structs s.name = some s) (he : s.extern = false)
    {r : IDRef} (hr : RefOK Γ s r) : ∃ t, typeOf P E (ref g (firstLetter s) r) = some (.ty t) ∧ isInt t = true ∧
      ∀ x, (∀ f ∈ refFields Γ s r, FitsTy f.type x) → fits x t = true := by
  unfold RefOK at hr
  unfold ref
  by_cases h0 : r.scope = ""
  · simp only [h0, if_true] at hr ⊢
    obtain ⟨f, hf, hfn, hi⟩ := hr
    obtain ⟨G, hG, hft⟩ := hs.fld s.name s hn he f hf
    refine ⟨norm G, ?_, (tipe_intLike hG hi).1, fun x hx => (tipe_intLike hG hi).2 x (hx f ?_)⟩
    · simp only [typeOf, I.recv]
      rw [← hs.hN, ← hfn]; exact hft
    · simp [refFields, h0, hf, hfn]
  · simp only [h0, if_false] at hr ⊢
    obtain ⟨hc, C, hC, f, hf, hfn, hi⟩ := hr
    obtain ⟨G, hG, hft⟩ := hs.ctxFld _ C hC f hf
    refine ⟨norm G, ?_, (tipe_intLike hG hi).1, fun x hx => (tipe_intLike hG hi).2 x (hx f ?_)⟩
    · simp only [typeOf, I.ctx _ hc]
      rw [← hs.hN, ← hfn]; exact hft
    · simp [refFields, h0, hC, hf, hfn]

theorem toInt_typed (I : Inv P Γ s E) {e : Expr} {t : GTy} (h : typeOf P E e = some (.ty t)) (ht : isInt t = true) :
    typeOf P E (.toInt e) = some (.ty .int) := by
  simp [typeOf, h, ht, guardT, I.free "int" (by decide)]

theorem len_typed (I : Inv P Γ s E) : typeOf P E (.len cur) = some (.ty .int) := by
  simp [typeOf, cur, I.cur, guardT, I.free "len" (by decide)]

/-! ## Conditions -/

theorem clause_typed (hK : Γ.K = g.res.constant) {v : Expr} {t : GTy} (hv : typeOf P E v = some (.ty t))
    {r : IntegerRange} (hr : ∀ p, bounds Γ.K r = some p → fits p.1 t = true ∧ fits p.2 t = true) {c : Expr}
    (h : clause g v r = .ok c) : typeOf P E c = some .bool := by
  unfold clause at h
  cases hh : r.high with
  | none =>
    rw [hh] at h
    obtain ⟨lo, h1, h⟩ := Res.bind_eq_ok.1 h
    cases h
    have := hr (lo, lo) (by simp [bounds, integer_ok hK h1, hh])
    simp [typeOf, typeOf.cmpTy, hv, comparable, this.1, guardT]
  | some hi =>
    rw [hh] at h
    obtain ⟨lo, h1, h⟩ := Res.bind_eq_ok.1 h
    obtain ⟨hi', h2, h⟩ := Res.bind_eq_ok.1 h
    cases h
    have := hr (lo, hi') (by simp [bounds, integer_ok hK h1, hh, integer_ok hK h2])
    simp [typeOf, typeOf.cmpTy, typeOf.boolTy, hv, comparable, this.1, this.2, guardT]

theorem clauses_typed (hK : Γ.K = g.res.constant) {v : Expr} {t : GTy} (hv : typeOf P E v = some (.ty t)) :
    ∀ {rs : List IntegerRange}, (∀ r ∈ rs, ∀ p, bounds Γ.K r = some p → fits p.1 t = true ∧ fits p.2 t = true) →
      ∀ {cs : List Expr}, clauses g v rs = .ok cs → ∀ c ∈ cs, typeOf P E c = some .bool := by
  intro rs
  induction rs with
  | nil => intro _ cs h; cases h; simp
  | cons r rs ih =>
    intro hr cs h
    obtain ⟨c, h1, h⟩ := Res.bind_eq_ok.1 h
    obtain ⟨cs', h2, h⟩ := Res.bind_eq_ok.1 h
    cases h
    intro c' hc'
    rcases List.mem_cons.1 hc' with rfl | hc'
    · exact clause_typed hK hv (hr r List.mem_cons_self) h1
    · exact ih (fun r' h' => hr r' (List.mem_cons_of_mem _ h')) h2 c' hc'

theorem foldl_or_typed : ∀ {cs : List Expr} {c : Expr}, typeOf P E c = some .bool → (∀ c ∈ cs, typeOf P E c = some .bool) →
    typeOf P E (cs.foldl .or c) = some .bool := by
  intro cs
  induction cs with
  | nil => intro c h _; exact h
  | cons d cs ih =>
    intro c h hc
    refine ih ?_ (fun c h => hc c (List.mem_cons_of_mem _ h))
    simp [typeOf, typeOf.boolTy, h, hc d List.mem_cons_self]

theorem conditional_typed (hK : Γ.K = g.res.constant) {v : Expr} {t : GTy} (hv : typeOf P E v = some (.ty t))
    {l : IntegerList} (hne : l.ranges ≠ [])
    (hr : ∀ r ∈ l.ranges, ∀ p, bounds Γ.K r = some p → fits p.1 t = true ∧ fits p.2 t = true) {c : Expr}
    (h : conditional g v l = .ok c) : typeOf P E c = some .bool := by
  obtain ⟨cs, h1, h⟩ := Res.bind_eq_ok.1 h
  cases h
  have hall := clauses_typed hK hv hr h1
  cases cs with
  | nil =>
    cases hl : l.ranges with
    | nil => exact absurd hl hne
    | cons r rs =>
      rw [hl] at h1
      obtain ⟨_, _, h1⟩ := Res.bind_eq_ok.1 h1
      obtain ⟨_, _, h1⟩ := Res.bind_eq_ok.1 h1
      cases h1
  | cons c cs => exact foldl_or_typed (hall c List.mem_cons_self) (fun d hd => hall d (List.mem_cons_of_mem _ hd))

/-! ## Statements -/

theorem lengthCheck_chk (I : Inv P Γ s E) {min : Expr} (h : typeOf P E min = some (.ty .int) ∨
    ∃ n, typeOf P E min = some (.const n) ∧ 0 ≤ n ∧ n < 2 ^ 63) (blk : List String) :
    chk P R (lengthCheck min) (E, blk) = some (E, blk) := by
  have hc : typeOf P E (.lt (.len cur) min) = some .bool := by
    have hl := len_typed I
    rcases h with h | ⟨n, h, h1, h2⟩
    · simp only [typeOf.eq_def P E (.lt _ _), hl, h]; rfl
    · have : (-9223372036854775808 : Int) ≤ n := by omega
      simp only [typeOf.eq_def P E (.lt _ _), hl, h, typeOf.cmpTy, comparable, fits]
      simp [guardT]; omega
  simp [lengthCheck, chk, chks, hc, guardT, I.free "nil" (by decide), I.free "errors" (by decide)]

theorem assertEnd_chk (I : Inv P Γ s E) (blk : List String) :
    chk P R assertEnd (E, blk) = some (E, blk) := by
  have hc : typeOf P E (.gt (.len cur) (.lit 0)) = some .bool := by
    have hl := len_typed I
    simp only [typeOf.eq_def P E (.gt _ _), hl, typeOf.cmpTy, typeOf.eq_def P E (.lit _)]; rfl
  simp [assertEnd, chk, chks, hc, guardT, I.free "nil" (by decide), I.free "errors" (by decide)]

theorem cur_assign (I : Inv P Γ s E) {e : Expr} (h : typeOf P E e = some .bytes) (blk : List String) :
    chk P R (.assign (.var "cur") e) (E, blk) = some (E, blk) := by
  simp [chk, assignOK, LV.expr, typeOf, I.cur, h, assignable, guardT]

theorem intRead_chk (I : Inv P Γ s E) {lhs : LV} {t : IntType} (hsz : SizeOK t)
    (hl : typeOf P E lhs.expr = some (.ty (norm (.uint t.size)))) (blk : List String) :
    chk P R (intRead lhs t) (E, blk) = some (E, blk) := by
  unfold intRead
  rcases hsz with h | h | h | h <;>
    simp [h, chk, assignOK, hl, typeOf, cur, I.cur, guardT, isIndex, norm, assignable, I.free "binary" (by decide)]

theorem parseInt_chk (hK : Γ.K = g.res.constant) (I : Inv P Γ s E) {lhs : LV} {t : IntType} (hsz : SizeOK t)
    (hco : ConstraintOK t) (hf : BaseFits Γ (.int t)) (hl : typeOf P E lhs.expr = some (.ty (norm (.uint t.size))))
    {ss : List Stmt} (h : parseIntType g lhs t = .ok ss) (blk : List String) :
    chks P R ss (E, blk) = some (E, blk) := by
  obtain ⟨cs, hcs, h⟩ := Res.bind_eq_ok.1 h
  cases h
  have hn : t.size / 8 < 2 ^ 63 := by rcases hsz with h | h | h | h <;> simp [h]
  have h1 : chk P R (lengthCheck (.lit (t.size / 8 : Nat))) (E, blk) = some (E, blk) :=
    lengthCheck_chk I (Or.inr ⟨((t.size / 8 : Nat) : Int), by rw [typeOf], by omega, by omega⟩) blk
  have h2 := intRead_chk (R := R) I hsz hl blk
  have h4 : chk P R (.assign (.var "cur") (.sliceFrom cur (.lit (t.size / 8 : Nat)))) (E, blk) = some (E, blk) := by
    refine cur_assign I ?_ blk
    have : isIndex (.const (t.size / 8 : Nat)) = true := by simp only [isIndex, decide_eq_true_eq]; omega
    simp only [typeOf, typeOf.sliceTy, cur, I.cur, this]
    rfl
  have h3 : chks P R cs (E, blk) = some (E, blk) := by
    unfold intCheck at hcs
    cases hc : t.constraint with
    | none => rw [hc] at hcs; cases hcs; simp [chks]
    | some l =>
      rw [hc] at hcs
      obtain ⟨c, hcc, hcs⟩ := Res.bind_eq_ok.1 hcs
      cases hcs
      have hb : typeOf P E c = some .bool := by
        refine conditional_typed hK hl (hco l hc) ?_ hcc
        intro r hr p hp
        have hi : IntLike (.base (.int t)) := hsz
        have := (tipe_intLike (g := g) (t := .base (.int t)) (G := .uint t.size) rfl hi).2
        exact ⟨this _ (hf l hc r hr p hp).1, this _ (hf l hc r hr p hp).2⟩
      simp [chks, chk, typeOf, typeOf.boolTy, hb, guardT, I.free "nil" (by decide), I.free "errors" (by decide)]
  simp only [List.append_assoc, List.cons_append, List.nil_append]
  rw [chks_cons h1, chks_cons h2, chks_append, h3, Option.bind_some, chks_cons h4]; rfl

/-- Variables of a location. -/
def lvars : LV → List String
  | .var x => [x]
  | .field x _ => [x]
  | .index x _ i => [x, i]

theorem lv_typeOf {E E' : TEnv} {l : LV} (h : ∀ x ∈ lvars l, E' x = E x) : typeOf P E' l.expr = typeOf P E l.expr := by
  cases l with
  | var x => simp [LV.expr, typeOf, h x (by simp [lvars])]
  | field x f => simp only [LV.expr, typeOf, h x (by simp [lvars])]
  | index x f i => simp only [LV.expr, typeOf, h x (by simp [lvars]), h i (by simp [lvars])]

/-- Reading an element: at most `err` is declared. -/
theorem parseBase_chk (hs : SigOK g Γ P) (hok : StructOK Γ s) (I : Inv P Γ s E) {lhs : LV} {b : Base} (hb : BaseOK Γ s b)
    (hf : BaseFits Γ b) (hl : typeOf P E lhs.expr = some (.ty (norm (tipeBase g b)))) (hlv : "err" ∉ lvars lhs)
    {ss : List Stmt} (h : parseBase g lhs b = .ok ss) {blk : List String} (hblk : "err" ∉ blk) :
    ∃ E' blk', chks P R ss (E, blk) = some (E', blk') ∧ ∀ x, x ≠ "err" → E' x = E x := by
  cases b with
  | int t => exact ⟨E, blk, parseInt_chk hs.hK I hb.1 hb.2 hf hl h blk, fun _ _ => rfl⟩
  | char =>
    refine ⟨E, blk, parseInt_chk (Γ := Γ) (t := U8) hs.hK I (Or.inl rfl) ?_ ?_ hl h blk, fun _ _ => rfl⟩
    · intro l hl; cases hl
    · intro l hl; cases hl
  | struct n =>
    obtain ⟨s', hs', hctx⟩ := hb
    have hr : g.res.struct n = some s' := by rw [← hs.hS]; exact hs'
    simp only [parseBase, hr] at h
    cases h
    have I' := I.bind hok hs (x := "err") (by simp) (.ty .error)
    have hl' : typeOf P (E.bind "err" (.ty .error)) lhs.expr = some (.ty (.ptr (Γ.nm n))) := by
      rw [lv_typeOf (E := E) (fun x hx => bind_ne _ _ (by rintro rfl; exact hlv hx)), hl, hs.hN]; rfl
    have hk := hs.known n s' hs'
    have hd : declarable blk "err" = true := by simp [declarable, hblk]; decide
    have h1 : chk P R (.varDecl "err" .error) (E, blk) = some (E.bind "err" (.ty .error), "err" :: blk) := by
      simp [chk, hd, validTy, I.free "error" (by decide), guardT, norm]
    have h2 : chk P R (.assign lhs (.new (g.nm n))) (E.bind "err" (.ty .error), "err" :: blk) =
        some (E.bind "err" (.ty .error), "err" :: blk) := by
      rw [← hs.hN]
      simp [chk, assignOK, hl', typeOf, I'.free "new" (by decide), validTy, hk, I'.types _ hk, guardT, assignable]
    have h3 : chk P R (.callParse "cur" "err" lhs cur s'.contexts) (E.bind "err" (.ty .error), "err" :: blk) =
        some (E.bind "err" (.ty .error), "err" :: blk) := by
      have ha : s'.contexts.map (E.bind "err" (.ty .error)) = (s'.contexts.map Γ.nm).map (fun p => some (XT.named p)) := by
        rw [List.map_map]
        exact List.map_congr_left (fun c hc => I'.ctx c (hctx c hc))
      simp [chk, callOK, hl', hs.call n s' hs', typeOf, cur, I'.cur, ha, guardT, bind_same E (x := "err") _ (by decide)]
    have h4 : chk P R (.ifS (.notNil (.var "err")) [.retErr "err"]) (E.bind "err" (.ty .error), "err" :: blk) =
        some (E.bind "err" (.ty .error), "err" :: blk) := by
      simp [chk, chks, typeOf, bind_same E (x := "err") _ (by decide), guardT, I'.free "nil" (by decide)]
    refine ⟨E.bind "err" (.ty .error), "err" :: blk, ?_, fun x hx => bind_ne _ _ hx⟩
    rw [chks_cons h1, chks_cons h2, chks_cons h3, chks_cons h4]; rfl

theorem extent_chk (hs : SigOK g Γ P) (hn : Γ.structs s.name = some s) (he : s.extern = false) (I : Inv P Γ s E)
    {c : LengthConstraint} (hc : LenOK Γ s c) {e : Stmt × Expr} (h : extent g (firstLetter s) c = .ok e) (blk : List String) :
    chk P R e.1 (E, blk) = some (E, blk) ∧ typeOf P E e.2 = some (.ty .int) := by
  cases c with
  | leftover k =>
    obtain ⟨k', hk, h⟩ := Res.bind_eq_ok.1 h
    cases h
    obtain ⟨x, hx, h0, h1⟩ := hc
    rw [integer_ok hs.hK hk] at hx
    cases hx
    refine ⟨lengthCheck_chk I (Or.inr ⟨k', by simp [typeOf], h0, h1⟩) blk, ?_⟩
    have hi : isIndex (.const k') = true := by simp [isIndex]; omega
    have hl := len_typed I
    rw [typeOf.eq_def P E (.sub _ _)]
    simp only [hl, typeOf.eq_def P E (.lit _)]
    simp [hi, guardT]
  | idRef r =>
    cases h
    obtain ⟨t, ht, hi, _⟩ := ref_typed hs I hn he hc
    have := toInt_typed I ht hi
    exact ⟨lengthCheck_chk I (Or.inl this) blk, this⟩

theorem slice_typed {e i : Expr} (h1 : typeOf P E e = some .bytes) (h2 : typeOf P E i = some (.ty .int)) :
    typeOf P E (.sliceFrom e i) = some .bytes ∧ typeOf P E (.sliceTo e i) = some .bytes := by
  simp [typeOf, typeOf.sliceTy, h1, h2, isIndex, guardT]

theorem extent_stable (hs : SigOK g Γ P) (hn : Γ.structs s.name = some s) (he : s.extern = false) {E' : TEnv}
    (I' : Inv P Γ s E') {c : LengthConstraint} (hc : LenOK Γ s c) {e : Stmt × Expr}
    (h : extent g (firstLetter s) c = .ok e) : typeOf P E' e.2 = some (.ty .int) :=
  (extent_chk (R := .bool) hs hn he I' hc h []).2

/-- A part of the input with a given length. -/
theorem constrained_chk (hs : SigOK g Γ P) (hok : StructOK Γ s) (hn : Γ.structs s.name = some s) (he : s.extern = false) (I : Inv P Γ s E)
    {c : LengthConstraint} (hc : LenOK Γ s c) {body : Res (List Stmt)} {ss : List Stmt}
    (h : constrained g (firstLetter s) c body = .ok ss)
    (hb : ∀ b, body = .ok b → ∀ E' blk, Inv P Γ s E' → (∀ x, x ≠ "restore" → E' x = E x) →
      chks P R b (E', blk) = some (E', blk)) {blk : List String} (hblk : "restore" ∉ blk) :
    ∃ E' blk', chks P R ss (E, blk) = some (E', blk') := by
  obtain ⟨e, h1, h⟩ := Res.bind_eq_ok.1 h
  obtain ⟨b, h2, h⟩ := Res.bind_eq_ok.1 h
  cases h
  have hx := extent_chk (R := R) hs hn he I hc h1 blk
  have hcur : typeOf P E cur = some .bytes := by simp [cur, typeOf, I.cur]
  have hd : declarable blk "restore" = true := by simp [declarable, hblk]; decide
  have a2 : chk P R (.define "restore" (.sliceFrom cur e.2)) (E, blk) = some (E.bind "restore" .bytes, "restore" :: blk) := by
    simp [chk, (slice_typed hcur hx.2).1, defTy, hd, guardT]
  have I' := I.bind hok hs (x := "restore") (by simp) .bytes
  have hcur' : typeOf P (E.bind "restore" .bytes) cur = some .bytes := by simp [cur, typeOf, I'.cur]
  have a3 := cur_assign (R := R) I' (slice_typed hcur' (extent_stable hs hn he I' hc h1)).2 ("restore" :: blk)
  have a4 := hb b h2 _ ("restore" :: blk) I' (fun x hx => bind_ne _ _ hx)
  have a5 := assertEnd_chk (R := R) I' ("restore" :: blk)
  have a6 := cur_assign (R := R) I' (e := .var "restore") (by simp [typeOf, bind_same E (x := "restore") _ (by decide)]) ("restore" :: blk)
  refine ⟨E.bind "restore" .bytes, "restore" :: blk, ?_⟩
  simp only [List.append_assoc, List.cons_append, List.nil_append]
  rw [chks_cons hx.1, chks_cons a2, chks_cons a3, chks_append, a4]
  simp [chks, a5, a6]

theorem lvars_field (hok : StructOK Γ s) (x : String) (hx : x ∈ reserved) (f : String) : x ∉ lvars (.field (firstLetter s) f) := by
  simp only [lvars, List.mem_singleton]
  rintro rfl
  exact hok.recv hx

theorem validBase (hs : SigOK g Γ P) (I : Inv P Γ s E) {b : Base} (hb : BaseOK Γ s b) : validTy P E (tipeBase g b) = true := by
  cases b with
  | int t =>
    rcases hb.1 with h | h | h | h <;> simp [tipeBase, validTy, h, I.free "uint8" (by decide), I.free "uint16" (by decide),
      I.free "uint32" (by decide), I.free "uint64" (by decide)]
  | char => simp [tipeBase, validTy, I.free "byte" (by decide)]
  | struct n =>
    obtain ⟨s', hs', _⟩ := hb
    have hk := hs.known n s' hs'
    rw [hs.hN] at hk
    simp only [tipeBase, validTy, hk, Bool.true_and]
    simp [I.types _ hk]

theorem parseRem_chk (hs : SigOK g Γ P) (hok : StructOK Γ s) (I : Inv P Γ s E) {f : String} {b : Base} (hb : BaseOK Γ s b)
    (hf : BaseFits Γ b) (hl : typeOf P E (LV.field (firstLetter s) f).expr = some (.ty (.slice (norm (tipeBase g b)))))
    {ss : List Stmt} (h : parseRem g (.field (firstLetter s) f) b = .ok ss) (blk : List String) :
    chks P R ss (E, blk) = some (E, blk) := by
  obtain ⟨body, hbody, h⟩ := Res.bind_eq_ok.1 h
  cases h
  have a1 : chk P R (.assign (.field (firstLetter s) f) (.make (tipeBase g b) (.lit 0))) (E, blk) = some (E, blk) := by
    simp [chk, assignOK, hl, typeOf, isIndex, validBase hs I hb, I.free "make" (by decide), guardT, assignable]
  have hc : typeOf P E (.gt (.len cur) (.lit 0)) = some .bool := by
    have hl := len_typed I
    simp only [typeOf.eq_def P E (.gt _ _), hl, typeOf.cmpTy, typeOf.eq_def P E (.lit _)]; rfl
  have I' := I.bind hok hs (x := "tmp") (by simp) (.ty (norm (tipeBase g b)))
  have b1 : chk P R (.varDecl "tmp" (tipeBase g b)) (E, []) = some (E.bind "tmp" (.ty (norm (tipeBase g b))), ["tmp"]) := by
    have : declarable [] "tmp" = true := by decide
    simp [chk, validBase hs I hb, guardT, this]
  have htmp := bind_same E (x := "tmp") (.ty (norm (tipeBase g b))) (by decide)
  obtain ⟨E', blk', b2, hE'⟩ := parseBase_chk (R := R) hs hok I' (lhs := .var "tmp") hb hf (by simp [LV.expr, typeOf, htmp]) (by simp [lvars])
    hbody (blk := ["tmp"]) (by decide)
  have hsame : ∀ x, x ≠ "err" → x ≠ "tmp" → E' x = E x := fun x h1 h2 => by rw [hE' x h1, bind_ne _ _ h2]
  have b3 : chk P R (.assign (.field (firstLetter s) f) (.append (LV.field (firstLetter s) f).expr (.var "tmp"))) (E', blk') =
      some (E', blk') := by
    have h1 : typeOf P E' (LV.field (firstLetter s) f).expr = some (.ty (.slice (norm (tipeBase g b)))) := by
      rw [lv_typeOf (E := E) ?_, hl]
      intro x hx
      refine hsame x ?_ ?_
      · rintro rfl; exact lvars_field hok _ (by decide) f hx
      · rintro rfl; exact lvars_field hok _ (by decide) f hx
    have h2 : E' "tmp" = some (.ty (norm (tipeBase g b))) := by rw [hE' "tmp" (by decide), htmp]
    have h3 : E' "append" = none := by rw [hsame _ (by decide) (by decide)]; exact I.free _ (by decide)
    have h4 : typeOf P E' (.append (LV.field (firstLetter s) f).expr (.var "tmp")) = some (.ty (.slice (norm (tipeBase g b)))) := by
      rw [typeOf.eq_def P E' (.append _ _)]
      simp only [h1, typeOf.eq_def P E' (.var _), h2, h3]
      simp [guardT, assignable]
    simp [chk, assignOK, h1, h4, assignable, guardT]
  rw [chks_cons a1]
  have hbody' : chks P R ([.varDecl "tmp" (tipeBase g b)] ++ body ++
      [.assign (.field (firstLetter s) f) (.append (LV.field (firstLetter s) f).expr (.var "tmp"))]) (E, []) = some (E', blk') := by
    simp only [List.append_assoc, List.cons_append, List.nil_append]
    rw [chks_cons b1, chks_append, b2]
    simp [chks, b3]
  simp only [chks, chk, hc, hbody']
  simp [guardT]

/-- The elements of an array, one by one. -/
theorem forIdx_chk (hs : SigOK g Γ P) (hok : StructOK Γ s) (I : Inv P Γ s E) {f : String} {b : Base} (hb : BaseOK Γ s b)
    (hf : BaseFits Γ b) {n : Expr} (hn : typeOf P (E.bind "idx" (.ty .int)) n = some (.ty .int) ∨
      ∃ k, typeOf P (E.bind "idx" (.ty .int)) n = some (.const k) ∧ 0 ≤ k ∧ k < 2 ^ 63)
    (hl : typeOf P (E.bind "idx" (.ty .int)) (LV.index (firstLetter s) f "idx").expr = some (.ty (norm (tipeBase g b))))
    {body : List Stmt} (h : parseBase g (.index (firstLetter s) f "idx") b = .ok body) (blk : List String) :
    chk P R (.forIdx "idx" n body) (E, blk) = some (E, blk) := by
  have I' := I.bind hok hs (x := "idx") (by simp) (.ty .int)
  obtain ⟨E', blk', b2, _⟩ := parseBase_chk (R := R) hs hok I' hb hf hl (by
    have := hok.recv
    simp only [lvars, List.mem_cons, List.not_mem_nil, or_false, not_or]
    exact ⟨by rintro h; exact this (h ▸ by decide), by decide⟩) h (blk := []) (by simp)
  have hi := bind_same E (x := "idx") (.ty .int) (by decide)
  have hd : declarable [] "idx" = true := by decide
  have hc : typeOf P (E.bind "idx" (.ty .int)) (.lt (.var "idx") n) = some .bool := by
    rcases hn with hn | ⟨k, hn, h0, h1⟩
    · simp only [typeOf.eq_def P _ (.lt _ _), typeOf.eq_def P _ (.var _), hi, hn]; rfl
    · simp only [typeOf.eq_def P _ (.lt _ _), typeOf.eq_def P _ (.var _), hi, hn, typeOf.cmpTy, comparable, fits]
      simp [guardT]; omega
  simp [chk, hd, hc, b2, guardT]

theorem index_typed {x f : String} {t : GTy} (h : typeOf P E (LV.field x f).expr = some (.ty (.slice t)) ∨
    ∃ n, typeOf P E (LV.field x f).expr = some (.ty (.array n t))) (hx : x ≠ "idx") :
    typeOf P (E.bind "idx" (.ty .int)) (LV.index x f "idx").expr = some (.ty t) := by
  have hi := bind_same E (x := "idx") (.ty .int) (by decide)
  have he : typeOf P (E.bind "idx" (.ty .int)) (LV.field x f).expr = typeOf P E (LV.field x f).expr :=
    lv_typeOf (fun y hy => by
      simp only [lvars, List.mem_singleton] at hy
      subst hy
      exact bind_ne _ _ hx)
  simp only [LV.expr] at he h ⊢
  rw [typeOf.eq_def P _ (.index _ _)]
  simp only [typeOf.eq_def P _ (.var "idx"), hi, he]
  rcases h with h | ⟨n, h⟩
  · simp [h, isIndex, guardT]
  · simp [h]

/-- Parsing a field. -/
theorem parseType_chk (hs : SigOK g Γ P) (hok : StructOK Γ s) (hn : Γ.structs s.name = some s) (he : s.extern = false)
    (I : Inv P Γ s E) {f : Field} (hf : f ∈ fieldsOf s.ms) (ht : TyOK Γ s f.type)
    (hfit : ∀ b, tyBase f.type = some b → BaseFits Γ b) {ss : List Stmt}
    (h : parseType g (firstLetter s) (.field (firstLetter s) (g.nm f.name)) f.type = .ok ss) :
    ∃ sc, chks P R ss (E, []) = some sc := by
  obtain ⟨G, hG, hft⟩ := hs.fld s.name s hn he f hf
  have hlhs : typeOf P E (LV.field (firstLetter s) (g.nm f.name)).expr = some (.ty (norm G)) := by
    simp only [LV.expr, typeOf, I.recv]
    rw [← hs.hN]; exact hft
  have hrne : ∀ x ∈ reserved, firstLetter s ≠ x := fun x hx h => hok.recv (h ▸ hx)
  have hcur : typeOf P E cur = some .bytes := by simp [cur, typeOf, I.cur]
  cases hty : f.type with
  | base b =>
    rw [hty] at h ht hG hfit
    cases hG
    obtain ⟨E', blk', h1, _⟩ := parseBase_chk (R := R) hs hok I ht (hfit b rfl) hlhs (lvars_field hok _ (by decide) _) h (blk := []) (by simp)
    exact ⟨_, h1⟩
  | ptr =>
    rw [hty] at h hG
    cases hG
    cases h
    have hd : typeOf P E (.len (.var "data")) = some (.ty .int) := by
      simp [typeOf, I.data, guardT, I.free "len" (by decide)]
    have he : typeOf P E (.sub (.len (.var "data")) (.len cur)) = some (.ty .int) := by
      rw [typeOf.eq_def P E (.sub _ _)]
      simp only [hd, len_typed I]
      simp [guardT, isIndex]
    exact ⟨(E, []), by simp [chks, chk, assignOK, hlhs, he, norm, assignable, guardT]⟩
  | nulterm =>
    rw [hty] at h hG ht
    cases hG
    cases h
    have hi := bind_same E (x := "i") (.ty .int) (by decide)
    have hne : ∀ y, y ≠ "i" → (E.bind "i" (.ty .int)) y = E y := fun y h => bind_ne _ _ h
    have a1 : chk P R (.define "i" (.indexByte0 cur)) (E, []) = some (E.bind "i" (.ty .int), ["i"]) := by
      have hd : declarable [] "i" = true := by decide
      rw [chk]
      rw [typeOf.eq_def P E (.indexByte0 _)]
      simp only [hcur]
      simp [guardT, I.free "bytes" (by decide), defTy, hd]
    have hcur' : typeOf P (E.bind "i" (.ty .int)) cur = some .bytes := by
      simp [cur, typeOf, hne "cur" (by decide), I.cur]
    have a2 : chk P R (.ifS (.lt (.var "i") (.lit 0)) [.retNew "could not parse nul-term string"]) (E.bind "i" (.ty .int), ["i"]) =
        some (E.bind "i" (.ty .int), ["i"]) := by
      simp [chk, chks, typeOf, typeOf.cmpTy, hi, comparable, fits, guardT, hne "nil" (by decide), hne "errors" (by decide),
        I.free "nil" (by decide), I.free "errors" (by decide)]
    have hl' : typeOf P (E.bind "i" (.ty .int)) (LV.field (firstLetter s) (g.nm f.name)).expr = some (.ty .string) := by
      rw [lv_typeOf (E := E) ?_, hlhs]; · rfl
      intro x hx
      simp only [lvars, List.mem_singleton] at hx
      subst hx
      exact hne _ ht
    have h3 : typeOf P (E.bind "i" (.ty .int)) (.sliceTo cur (.var "i")) = some .bytes := (slice_typed hcur' (by simp [typeOf, hi])).2
    have h4 : typeOf P (E.bind "i" (.ty .int)) (.toStr (.sliceTo cur (.var "i"))) = some (.ty .string) := by
      rw [typeOf.eq_def P _ (.toStr _)]
      simp only [h3]
      simp [guardT, hne "string" (by decide), I.free "string" (by decide)]
    have h5 : typeOf P (E.bind "i" (.ty .int)) (.sliceFrom cur (.add (.var "i") (.lit 1))) = some .bytes :=
      (slice_typed hcur' (by simp [typeOf, hi, isIndex, guardT])).1
    have h6 : typeOf P (E.bind "i" (.ty .int)) (LV.var "cur").expr = some .bytes := hcur'
    have a3 : chk P R (.assign2 (.field (firstLetter s) (g.nm f.name)) (.var "cur") (.toStr (.sliceTo cur (.var "i")))
        (.sliceFrom cur (.add (.var "i") (.lit 1)))) (E.bind "i" (.ty .int), ["i"]) = some (E.bind "i" (.ty .int), ["i"]) := by
      simp [chk, assignOK, hl', h4, h5, h6, assignable, guardT]
    exact ⟨_, by rw [chks_cons a1, chks_cons a2, chks_cons a3]; rfl⟩
  | fixedArray b n =>
    rw [hty] at h ht hG hfit
    obtain ⟨k, hk, hG⟩ := Res.bind_eq_ok.1 hG
    cases hG
    obtain ⟨k', hk', h⟩ := Res.bind_eq_ok.1 h
    rw [hk] at hk'
    cases hk'
    obtain ⟨body, hbody, h⟩ := Res.bind_eq_ok.1 h
    cases h
    obtain ⟨x, hx, h0, h1⟩ := ht.2
    rw [integer_ok hs.hK hk] at hx
    cases hx
    have := forIdx_chk (R := R) hs hok I ht.1 (hfit b rfl) (n := .lit k) (Or.inr ⟨k, by simp [typeOf], h0, h1⟩)
      (index_typed (Or.inr ⟨k, hlhs⟩) (hrne _ (by decide))) hbody []
    exact ⟨_, by rw [chks_cons this]; rfl⟩
  | varArray b c =>
    rw [hty] at h ht hG hfit
    cases hG
    rcases c with _ | (k | r)
    · exact ⟨_, parseRem_chk hs hok I ht (hfit b rfl) hlhs h []⟩
    · obtain ⟨E', blk', h1⟩ := constrained_chk (R := R) hs hok hn he I ht.2 h (fun b' hb' E' blk I' hE' =>
        parseRem_chk hs hok I' ht.1 (hfit b rfl) (by
          rw [lv_typeOf (E := E) ?_]; · exact hlhs
          intro x hx
          refine hE' x ?_
          rintro rfl
          exact lvars_field hok _ (by decide) _ hx) hb' blk) (blk := []) (by simp)
      exact ⟨_, h1⟩
    · obtain ⟨body, hbody, h⟩ := Res.bind_eq_ok.1 h
      cases h
      obtain ⟨t, ht', hi, _⟩ := ref_typed hs I hn he ht.2
      have h1 := toInt_typed I ht' hi
      have I' := I.bind hok hs (x := "idx") (by simp) (.ty .int)
      obtain ⟨t2, ht2, hi2, _⟩ := ref_typed hs I' hn he ht.2
      have h2 := toInt_typed I' ht2 hi2
      have a1 : chk P R (.assign (.field (firstLetter s) (g.nm f.name)) (.make (tipeBase g b) (.toInt (ref g (firstLetter s) r)))) (E, []) =
          some (E, []) := by
        have hm : typeOf P E (.make (tipeBase g b) (.toInt (ref g (firstLetter s) r))) = some (.ty (.slice (norm (tipeBase g b)))) := by
          rw [typeOf.eq_def P E (.make _ _)]
          simp only [h1]
          simp [isIndex, validBase hs I ht.1, I.free "make" (by decide), guardT]
        simp [chk, assignOK, hlhs, hm, norm, assignable, guardT]
      have a2 := forIdx_chk (R := R) hs hok I ht.1 (hfit b rfl) (Or.inl h2) (index_typed (Or.inl hlhs) (hrne _ (by decide))) hbody []
      exact ⟨_, by rw [chks_cons a1, chks_cons a2]; rfl⟩

theorem parseLeaf_chk (hs : SigOK g Γ P) (hok : StructOK Γ s) (hfit : StructFits Γ s) (hn : Γ.structs s.name = some s)
    (he : s.extern = false) (I : Inv P Γ s E) {l : Leaf} (hl : LeafOK Γ s l) (hmem : ∀ f, l = .field f → f ∈ fieldsOf s.ms)
    {st : Stmt} (h : parseLeaf g (firstLetter s) l = .ok st) (blk : List String) :
    chk P .bytes st (E, blk) = some (E, blk) := by
  cases l with
  | field f =>
    obtain ⟨ss, h1, h⟩ := Res.bind_eq_ok.1 h
    cases h
    obtain ⟨sc, hsc⟩ := parseType_chk (R := .bytes) hs hok hn he I (hmem f rfl) hl (hfit.fields f (hmem f rfl)) h1
    simp [chk, hsc]
  | eos => cases h; simp [chk, chks, assertEnd_chk (R := .bytes) I []]
  | ignore =>
    cases h
    have := cur_assign (R := .bytes) I (e := .emptyBytes) (by simp [typeOf, guardT, I.free "byte" (by decide)]) []
    simp [chk.eq_def P _ (.block _), chks, this]
  | fail => cases h; simp [chk, chks, guardT, I.free "nil" (by decide), I.free "errors" (by decide)]

theorem parseLeaves_chk (hs : SigOK g Γ P) (hok : StructOK Γ s) (hfit : StructFits Γ s) (hn : Γ.structs s.name = some s)
    (he : s.extern = false) (I : Inv P Γ s E) : ∀ {ls : List Leaf}, (∀ l ∈ ls, LeafOK Γ s l) →
      (∀ f ∈ leafFields ls, f ∈ fieldsOf s.ms) → ∀ {ss : List Stmt}, parseLeaves g (firstLetter s) ls = .ok ss →
      ∀ blk, chks P .bytes ss (E, blk) = some (E, blk) := by
  intro ls
  induction ls with
  | nil => intro _ _ ss h blk; cases h; rfl
  | cons l ls ih =>
    intro hl hm ss h blk
    obtain ⟨st, h1, h⟩ := Res.bind_eq_ok.1 h
    obtain ⟨ss', h2, h⟩ := Res.bind_eq_ok.1 h
    cases h
    have a := parseLeaf_chk hs hok hfit hn he I (hl l List.mem_cons_self) (fun f hf => hm f (by subst hf; simp [leafFields])) h1 blk
    rw [chks_cons a]
    refine ih (fun l h => hl l (List.mem_cons_of_mem _ h)) (fun f hf => hm f ?_) h2 blk
    simp only [leafFields, List.mem_filterMap] at hf ⊢
    obtain ⟨l', h1, h2⟩ := hf
    exact ⟨l', List.mem_cons_of_mem _ h1, h2⟩

theorem parseCases_chk (hs : SigOK g Γ P) (hok : StructOK Γ s) (hfit : StructFits Γ s) (hn : Γ.structs s.name = some s)
    (he : s.extern = false) (I : Inv P Γ s E) {tag : IDRef} (ht : RefOK Γ s tag) : ∀ {cs : List UnionCase},
      (∀ c ∈ cs, (∀ l, c.case = some l → l.ranges ≠ []) ∧ ∀ l ∈ c.members, LeafOK Γ s l) →
      (∀ c ∈ cs, ∀ l, c.case = some l → ∀ f ∈ refFields Γ s tag, ListFits Γ f.type l) →
      (∀ c ∈ cs, ∀ f ∈ leafFields c.members, f ∈ fieldsOf s.ms) → ∀ {out},
      parseCases g (firstLetter s) (ref g (firstLetter s) tag) cs = .ok out →
      chkClauses P .bytes out E = some () ∧
        (out.filter (fun c => c.1.isNone)).length = (cs.filter (fun c => c.case.isNone)).length := by
  intro cs
  induction cs with
  | nil => intro _ _ _ out h; cases h; simp [chkClauses]
  | cons c cs ih =>
    intro hc hf hm out h
    obtain ⟨hd, h1, h⟩ := Res.bind_eq_ok.1 h
    obtain ⟨body, h2, h⟩ := Res.bind_eq_ok.1 h
    obtain ⟨rest, h3, h⟩ := Res.bind_eq_ok.1 h
    cases h
    have hx := ih (fun c h => hc c (List.mem_cons_of_mem _ h)) (fun c h => hf c (List.mem_cons_of_mem _ h))
      (fun c h => hm c (List.mem_cons_of_mem _ h)) h3
    have hb := parseLeaves_chk hs hok hfit hn he I (hc c List.mem_cons_self).2 (hm c List.mem_cons_self) h2 []
    unfold caseHead at h1
    cases hcase : c.case with
    | none =>
      rw [hcase] at h1
      cases h1
      simp [chkClauses, hb, hx.1, hx.2, guardT, hcase]
    | some l =>
      rw [hcase] at h1
      obtain ⟨e, he1, h⟩ := Res.bind_eq_ok.1 h1
      cases h
      obtain ⟨t, ht', _, hfit'⟩ := ref_typed hs I hn he ht
      have hty : typeOf P E e = some .bool :=
        conditional_typed hs.hK ht' ((hc c List.mem_cons_self).1 l hcase) (fun r hr p hp =>
          ⟨hfit' _ (fun f hf' => (hf c List.mem_cons_self l hcase f hf' r hr p hp).1),
            hfit' _ (fun f hf' => (hf c List.mem_cons_self l hcase f hf' r hr p hp).2)⟩) he1
      simp [chkClauses, hb, hx.1, hx.2, guardT, hcase, hty]

theorem parseSwitch_chk (hs : SigOK g Γ P) (hok : StructOK Γ s) (hfit : StructFits Γ s) (hn : Γ.structs s.name = some s)
    (he : s.extern = false) (I : Inv P Γ s E) {u : UnionMember} (hu : MemberOK Γ s (.union u)) (hf : UnionFits Γ s u)
    (hm : ∀ f ∈ memberFields (.union u), f ∈ fieldsOf s.ms) {ss : List Stmt} (h : parseSwitch g (firstLetter s) u = .ok ss)
    (blk : List String) : chks P .bytes ss (E, blk) = some (E, blk) := by
  obtain ⟨cs, h1, h⟩ := Res.bind_eq_ok.1 h
  cases h
  have := parseCases_chk hs hok hfit hn he I hu.1 hu.2.2 hf.2 (fun c hc f hf => hm f (List.mem_flatMap.2 ⟨c, hc, hf⟩)) h1
  have hle : (cs.filter (fun c => c.1.isNone)).length ≤ 1 := by rw [this.2]; exact hf.1
  simp [chks, chk, this.1, guardT, hle]

theorem parseMembers_chk (hs : SigOK g Γ P) (hok : StructOK Γ s) (hfit : StructFits Γ s) (hn : Γ.structs s.name = some s)
    (he : s.extern = false) (I : Inv P Γ s E) : ∀ {ms : List Member}, (∀ m ∈ ms, m ∈ s.ms) → ∀ {ss : List Stmt},
      parseMembers g (firstLetter s) ms = .ok ss → ∀ blk, chks P .bytes ss (E, blk) = some (E, blk) := by
  intro ms
  induction ms with
  | nil => intro _ ss h blk; cases h; rfl
  | cons m ms ih =>
    intro hm ss h blk
    obtain ⟨st, h1, h⟩ := Res.bind_eq_ok.1 h
    obtain ⟨ss', h2, h⟩ := Res.bind_eq_ok.1 h
    cases h
    have hmem := hm m List.mem_cons_self
    have hmf : ∀ f ∈ memberFields m, f ∈ fieldsOf s.ms := fun f hf => List.mem_flatMap.2 ⟨m, hmem, hf⟩
    have a : chk P .bytes st (E, blk) = some (E, blk) := by
      cases m with
      | leaf l => exact parseLeaf_chk hs hok hfit hn he I (hok.members _ hmem) (fun f hf => hmf f (by subst hf; simp [memberFields, leafFields])) h1 blk
      | union u =>
        obtain ⟨us, hus, h⟩ := Res.bind_eq_ok.1 h1
        cases h
        have hu := hok.members _ hmem
        have hf : UnionFits Γ s u := hfit.unions _ hmem
        unfold parseUnion at hus
        cases hl : u.length with
        | none =>
          rw [hl] at hus
          simp [chk, parseSwitch_chk hs hok hfit hn he I hu hf hmf hus []]
        | some c =>
          rw [hl] at hus
          obtain ⟨E', blk', h3⟩ := constrained_chk (R := .bytes) hs hok hn he I (hu.2.1 c hl) hus (fun b hb E' blk I' _ =>
            parseSwitch_chk hs hok hfit hn he I' hu hf hmf hb blk) (blk := []) (by simp)
          simp [chk, h3]
    rw [chks_cons a]
    exact ih (fun m h => hm m (List.mem_cons_of_mem _ h)) h2 blk

/-! ## Functions -/

theorem bindT_ok : ∀ {ps : List (String × XT)} {E : TEnv} {blk : List String}, (ps.map (·.1)).Nodup →
    (∀ p ∈ ps, p.1 ∉ blk ∧ p.1 ∉ keywords ∧ p.1 ≠ "_") →
    ∃ E' blk', bindT ps (E, blk) = some (E', blk') ∧ (∀ p ∈ ps, E' p.1 = some p.2) ∧
      (∀ x, x ∉ ps.map (·.1) → E' x = E x) ∧ ∀ x, x ∈ blk' → x ∈ blk ∨ x ∈ ps.map (·.1) := by
  intro ps
  induction ps with
  | nil => intro E blk _ _; exact ⟨E, blk, rfl, by simp, by simp, fun x h => Or.inl h⟩
  | cons p ps ih =>
    intro E blk hnd hp
    simp only [List.map_cons, List.nodup_cons] at hnd
    obtain ⟨h1, h2, h3⟩ := hp p List.mem_cons_self
    obtain ⟨E', blk', hb, ha, hb', hc⟩ := ih (E := E.bind p.1 p.2) (blk := p.1 :: blk) hnd.2 (fun q hq => by
      have := hp q (List.mem_cons_of_mem _ hq)
      refine ⟨?_, this.2⟩
      rw [List.mem_cons]
      rintro (h | h)
      · exact hnd.1 (h ▸ List.mem_map_of_mem hq)
      · exact this.1 h)
    refine ⟨E', blk', ?_, ?_, ?_, ?_⟩
    · obtain ⟨x, t⟩ := p
      simp only at h1 h2 h3 hb
      simp [bindT, declarable, h1, h2, h3, guardT, hb]
    · intro q hq
      rcases List.mem_cons.1 hq with rfl | hq
      · rw [hb' _ hnd.1, bind_same _ _ h3]
      · exact ha q hq
    · intro x hx
      simp only [List.map_cons, List.mem_cons, not_or] at hx
      rw [hb' x hx.2, bind_ne _ _ hx.1]
    · intro x hx
      rcases hc x hx with h | h
      · rcases List.mem_cons.1 h with rfl | h
        · exact Or.inr (by simp)
        · exact Or.inl h
      · exact Or.inr (by simp only [List.map_cons, List.mem_cons]; exact Or.inr h)

theorem terminates_ret : ∀ (ss : List Stmt) (e : Expr), terminates (ss ++ [.ret e]) = true := by
  intro ss e
  induction ss with
  | nil => rfl
  | cons s ss ih =>
    cases ss with
    | nil => simp [terminates]
    | cons t ss => simpa [terminates] using ih

/-- Names of types do not clash with the variables of the code of `s`. -/
structure Apart (P : Sig) (s : Struct) : Prop where
  recv : (P.types.lookup (firstLetter s)).isSome = false
  cur : (P.types.lookup "cur").isSome = false
  data : (P.types.lookup "data").isSome = false
  ctxs : ∀ c ∈ s.contexts, (P.types.lookup c).isSome = false

theorem keyword_reserved {x : String} (h : x ∉ reserved) : x ∉ keywords ∧ x ≠ "_" ∧ x ∉ builtins := by
  refine ⟨fun hx => h ?_, fun hx => h (hx ▸ by decide), fun hx => h ?_⟩
  · exact (by decide : ∀ y ∈ keywords, y ∈ reserved) x hx
  · exact (by decide : ∀ y ∈ builtins, y ∈ reserved) x hx

theorem method_chk (hs : SigOK g Γ P) (hok : StructOK Γ s) (hfit : StructFits Γ s) (hn : Γ.structs s.name = some s)
    (he : s.extern = false) (hap : Apart P s) (hnd : s.contexts.Nodup)
    (hctx : ∀ c ∈ s.contexts, (P.types.lookup (Γ.nm c)).isSome = true) {m : Method}
    (h : parse g (firstLetter s) s = .ok m) : chkMethod P m = true := by
  obtain ⟨body, h1, h⟩ := Res.bind_eq_ok.1 h
  cases h
  have hps : ((firstLetter s, XT.ty (.ptr (g.nm s.name))) :: ("data", .bytes) ::
      (contextSignature g s.contexts).map (fun p => (p.1, XT.named p.2))).map (·.1) = firstLetter s :: "data" :: s.contexts := by
    simp [contextSignature, Function.comp_def]
  have hdata : "data" ∉ s.contexts := fun hc => (hok.ctxs _ hc).1 (by decide)
  have hrd : firstLetter s ≠ "data" := fun h => hok.recv (h ▸ by decide)
  have hrc : firstLetter s ∉ s.contexts := fun hc => (hok.ctxs _ hc).2 rfl
  obtain ⟨E', blk', hb, hin, hout, hblk⟩ := bindT_ok (E := fun _ => none) (blk := [])
    (ps := (firstLetter s, XT.ty (.ptr (g.nm s.name))) :: ("data", .bytes) ::
      (contextSignature g s.contexts).map (fun p => (p.1, XT.named p.2)))
    (by rw [hps]; simp [hdata, hrd, hrc, hnd]) (by
      intro p hp
      have hp' := List.mem_map_of_mem (f := (·.1)) hp
      rw [hps] at hp'
      have : p.1 ∉ keywords ∧ p.1 ≠ "_" := by
        simp only [List.mem_cons] at hp'
        rcases hp' with h | h | h
        · rw [h]; exact ⟨(keyword_reserved hok.recv).1, (keyword_reserved hok.recv).2.1⟩
        · rw [h]; decide
        · exact ⟨(keyword_reserved (hok.ctxs _ h).1).1, (keyword_reserved (hok.ctxs _ h).1).2.1⟩
      exact ⟨by simp, this⟩)
  rw [hps] at hout hblk
  have hEd : E' "data" = some .bytes := hin ("data", .bytes) (by simp)
  have hcurne : ∀ x, x ∈ firstLetter s :: "data" :: s.contexts → x ≠ "cur" := by
    intro x hx
    simp only [List.mem_cons] at hx
    rcases hx with rfl | rfl | hx
    · exact fun h => hok.recv (h ▸ by decide)
    · decide
    · exact fun h => (hok.ctxs _ hx).1 (h ▸ by decide)
  have hcblk : "cur" ∉ blk' := by
    intro h
    rcases hblk _ h with h | h
    · cases h
    · exact hcurne _ h rfl
  have a1 : chk P .bytes (.define "cur" (.var "data")) (E', blk') = some (E'.bind "cur" .bytes, "cur" :: blk') := by
    have hd : declarable blk' "cur" = true := by simp [declarable, hcblk]; decide
    simp [chk, typeOf, hEd, defTy, hd, guardT]
  have I : Inv P Γ s (E'.bind "cur" .bytes) := by
    have hne : ∀ x, x ≠ "cur" → (E'.bind "cur" .bytes) x = E' x := fun x h => bind_ne _ _ h
    refine ⟨bind_same _ _ (by decide), ?_, ?_, ?_, ?_, ?_⟩
    · rw [hne _ (by decide)]; exact hEd
    · rw [hne _ (hcurne _ (by simp)), hs.hN]; exact hin (firstLetter s, _) (by simp)
    · intro c hc
      rw [hne _ (hcurne _ (by simp [hc])), hs.hN]
      exact hin (c, XT.named (g.nm c)) (by simp [contextSignature, hc])
    · intro b hb
      have hbr : b ∈ reserved := (by decide : ∀ y ∈ builtins, y ∈ reserved) b hb
      rw [hne _ (by rintro rfl; revert hb; decide), hout]
      simp only [List.mem_cons, not_or]
      refine ⟨fun h => hok.recv (h ▸ hbr), by rintro rfl; revert hb; decide, fun h => (hok.ctxs _ h).1 hbr⟩
    · intro T hT
      rw [hne _ (by rintro rfl; rw [hap.cur] at hT; cases hT), hout]
      simp only [List.mem_cons, not_or]
      refine ⟨(by rintro rfl; rw [hap.recv] at hT; cases hT), (by rintro rfl; rw [hap.data] at hT; cases hT),
        fun h => by rw [hap.ctxs _ h] at hT; cases hT⟩
  have a2 := parseMembers_chk hs hok hfit hn he I (fun m h => h) h1 ("cur" :: blk')
  have a3 : chk P .bytes (.ret cur) (E'.bind "cur" .bytes, "cur" :: blk') = some (E'.bind "cur" .bytes, "cur" :: blk') := by
    simp [chk, typeOf, cur, I.cur, I.free "nil" (by decide), guardT]
  have hk := hs.known _ _ hn
  rw [hs.hN] at hk
  rw [hs.hN] at hctx
  simp only [chkMethod, hk, Bool.true_and, Bool.and_eq_true]
  refine ⟨?_, ?_⟩
  · simp only [List.all_eq_true, contextSignature, List.mem_map]
    rintro p ⟨c, hc, rfl⟩
    exact hctx c hc
  · simp only [chkFunc, hb, Bool.and_eq_true]
    refine ⟨⟨?_, terminates_ret _ _⟩, parse_used h⟩
    simp only [List.append_assoc, List.cons_append, List.nil_append]
    rw [chks_cons a1, chks_append, a2, Option.bind_some, chks_cons a3]
    rfl

theorem ctor_chk (hs : SigOK g Γ P) (hok : StructOK Γ s) (hn : Γ.structs s.name = some s) (hap : Apart P s)
    (hnd : s.contexts.Nodup) (hctx : ∀ c ∈ s.contexts, (P.types.lookup (Γ.nm c)).isSome = true) :
    chkCtor P (parseConstructor g (firstLetter s) s) = true := by
  have hps : (("data", XT.bytes) :: (contextSignature g s.contexts).map (fun p => (p.1, XT.named p.2))).map (·.1) =
      "data" :: s.contexts := by
    simp [contextSignature, Function.comp_def]
  have hdata : "data" ∉ s.contexts := fun hc => (hok.ctxs _ hc).1 (by decide)
  have hrd : firstLetter s ≠ "data" := fun h => hok.recv (h ▸ by decide)
  have hrc : firstLetter s ∉ s.contexts := fun hc => (hok.ctxs _ hc).2 rfl
  obtain ⟨E', blk', hb, hin, hout, hblk⟩ := bindT_ok (E := fun _ => none) (blk := [])
    (ps := ("data", XT.bytes) :: (contextSignature g s.contexts).map (fun p => (p.1, XT.named p.2)))
    (by rw [hps]; simp [hdata, hnd]) (by
      intro p hp
      have hp' := List.mem_map_of_mem (f := (·.1)) hp
      rw [hps] at hp'
      have : p.1 ∉ keywords ∧ p.1 ≠ "_" := by
        simp only [List.mem_cons] at hp'
        rcases hp' with h | h
        · rw [h]; decide
        · exact ⟨(keyword_reserved (hok.ctxs _ h).1).1, (keyword_reserved (hok.ctxs _ h).1).2.1⟩
      exact ⟨by simp, this⟩)
  rw [hps] at hout hblk
  have hEd : E' "data" = some .bytes := hin ("data", .bytes) (by simp)
  have hk := hs.known _ _ hn
  rw [hs.hN] at hk
  have hfree : ∀ b ∈ builtins, E' b = none := by
    intro b hb
    have hbr : b ∈ reserved := (by decide : ∀ y ∈ builtins, y ∈ reserved) b hb
    rw [hout]
    simp only [List.mem_cons, not_or]
    exact ⟨by rintro rfl; revert hb; decide, fun h => (hok.ctxs _ h).1 hbr⟩
  have hT : E' (g.nm s.name) = none := by
    rw [hout]
    simp only [List.mem_cons, not_or]
    exact ⟨fun h => (by rw [h, hap.data] at hk; cases hk), fun h => (by rw [hap.ctxs _ h] at hk; cases hk)⟩
  have hre : firstLetter s ≠ "err" := fun h => hok.recv (h ▸ by decide)
  have hrblk : firstLetter s ∉ blk' := by
    intro h
    rcases hblk _ h with h | h
    · cases h
    · simp only [List.mem_cons] at h
      rcases h with h | h
      · exact hrd h
      · exact hrc h
  have heblk : "err" ∉ firstLetter s :: blk' := by
    simp only [List.mem_cons, not_or]
    refine ⟨fun h => hre h.symm, fun h => ?_⟩
    rcases hblk _ h with h | h
    · cases h
    · simp only [List.mem_cons] at h
      rcases h with h | h
      · revert h; decide
      · exact (hok.ctxs _ h).1 (by decide)
  obtain ⟨hrk, hr_, hrb⟩ := keyword_reserved hok.recv
  have a1 : chk P (.ty (.ptr (g.nm s.name))) (.define (firstLetter s) (.new (g.nm s.name))) (E', blk') =
      some (E'.bind (firstLetter s) (.ty (.ptr (g.nm s.name))), firstLetter s :: blk') := by
    have hd : declarable blk' (firstLetter s) = true := by simp [declarable, hrblk, hrk, hr_]
    simp [chk, typeOf, hfree "new" (by decide), validTy, hk, hT, defTy, hd, guardT]
  have hE1 : (E'.bind (firstLetter s) (.ty (.ptr (g.nm s.name)))) (firstLetter s) = some (.ty (.ptr (g.nm s.name))) := bind_same _ _ hr_
  have a2 : chk P (.ty (.ptr (g.nm s.name))) (.callDefine "err" (.var (firstLetter s)) (.var "data") s.contexts)
      (E'.bind (firstLetter s) (.ty (.ptr (g.nm s.name))), firstLetter s :: blk') =
      some ((E'.bind (firstLetter s) (.ty (.ptr (g.nm s.name)))).bind "err" (.ty .error), "err" :: firstLetter s :: blk') := by
    have hd : declarable (firstLetter s :: blk') "err" = true := by
      have hne : ¬ "err" = firstLetter s := fun h => hre h.symm
      have hnb : "err" ∉ blk' := fun h => heblk (List.mem_cons_of_mem _ h)
      simp [declarable, hne, hnb]; decide
    have hcall := hs.call _ _ hn
    rw [hs.hN] at hcall
    have ha : s.contexts.map (E'.bind (firstLetter s) (.ty (.ptr (g.nm s.name)))) = (s.contexts.map g.nm).map (fun p => some (XT.named p)) := by
      rw [List.map_map]
      refine List.map_congr_left (fun c hc => ?_)
      rw [bind_ne _ _ (hok.ctxs c hc).2]
      exact hin (c, XT.named (g.nm c)) (by simp [contextSignature, hc])
    have hd' : typeOf P (E'.bind (firstLetter s) (.ty (.ptr (g.nm s.name)))) (.var "data") = some .bytes := by
      rw [typeOf, bind_ne _ _ (fun h => hrd h.symm)]; exact hEd
    have hc : callOK P (E'.bind (firstLetter s) (.ty (.ptr (g.nm s.name)))) (.var (firstLetter s)) (.var "data") s.contexts = true := by
      simp only [callOK, LV.expr, typeOf.eq_def P _ (.var (firstLetter s)), hE1, hcall, hd', ha]
      simp
    simp [chk, hc, hd, guardT]
  have hnil : ((E'.bind (firstLetter s) (.ty (.ptr (g.nm s.name)))).bind "err" (.ty .error)) "nil" = none := by
    have hnr : "nil" ≠ firstLetter s := fun h => hrb (h ▸ by decide)
    rw [bind_ne _ _ (by decide), bind_ne _ _ hnr]
    exact hfree _ (by decide)
  have herr := bind_same (E'.bind (firstLetter s) (.ty (.ptr (g.nm s.name)))) (x := "err") (.ty .error) (by decide)
  have hrec : ((E'.bind (firstLetter s) (.ty (.ptr (g.nm s.name)))).bind "err" (.ty .error)) (firstLetter s) =
      some (.ty (.ptr (g.nm s.name))) := by rw [bind_ne _ _ hre]; exact hE1
  simp only [chkCtor, parseConstructor, hk, Bool.true_and, Bool.and_eq_true]
  refine ⟨?_, ?_⟩
  · rw [hs.hN] at hctx
    simp only [List.all_eq_true, contextSignature, List.mem_map]
    rintro p ⟨c, hc, rfl⟩
    exact hctx c hc
  · simp only [chkFunc, hb, Bool.and_eq_true]
    refine ⟨⟨?_, by rfl⟩, ctor_used _ _⟩
    rw [chks_cons a1, chks_cons a2]
    simp [chks, chk, typeOf, herr, hnil, hrec, guardT]

end Verif.Refine
