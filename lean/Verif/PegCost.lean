import Verif.PegComplete
/-!
# How many expressions the parser evaluates

parse/internal/parser/gen-parser.go:3834 counts the calls of `parseExpr` in `ExprCnt`. The count is modelled here, beside the
interpreter, and bounded below by the shape of the declarations in the text: structs declared in place are parsed
again for each alternative that starts with an element type.
-/
namespace Verif.Peg
open Verif Verif.Ast Verif.Syntax

set_option linter.unusedSimpArgs false
set_option linter.unusedVariables false

/-! ## The count -/

/-- Calls made by the loop of `parseSeqExpr` (gen-parser.go:4192-4211). -/
def seqCount (rec : Expr → Env → St → R) (cnt : Expr → Env → St → Nat) : List Expr → Env → St → Nat
  | [], _, _ => 0
  | e :: es, env, st =>
    cnt e env st +
      match rec e env st with
      | .ok _ env st => seqCount rec cnt es env st
      | _ => 0

/-- Calls made by the loop of `parseChoiceExpr` (gen-parser.go:4041-4063). -/
def choiceCount (rec : Expr → Env → St → R) (cnt : Expr → Env → St → Nat) : List Expr → St → Nat
  | [], _ => 0
  | e :: es, st =>
    cnt e [] st +
      match rec e [] st with
      | .fail st' => choiceCount rec cnt es { st' with ling := st.ling }
      | _ => 0

/-- Calls made by the loop of `parseZeroOrMoreExpr` (gen-parser.go:4241-4257). -/
def starCount (rec : St → R) (cnt : St → Nat) : Nat → St → Nat
  | 0, _ => 0
  | n + 1, st =>
    cnt st +
      match rec st with
      | .ok _ _ st => starCount rec cnt n st
      | _ => 0

/-- gen-parser.go:3834 `p.ExprCnt++`: the number of calls of `parseExpr` (3822-3885), including this one, in the
run that `parseExpr rules n` describes. The limit `maxExprCnt` is not set by parse/parse.go (and is 2^64-1 then,
gen-parser.go:3390-3392), and `memoize` is not set either. -/
def countExpr (rules : RuleName → Expr) : Nat → Expr → Env → St → Nat
  | 0, _, _, _ => 0
  | n + 1, e, env, st =>
    let rec' := parseExpr rules n
    let cnt := countExpr rules n
    1 + match e with
      | .action e _ => cnt e env st
      | .seq es => seqCount rec' cnt es env st
      | .choice es => choiceCount rec' cnt es st
      | .ref r => cnt (rules r) [] st
      | .label _ e => cnt e [] st
      | .star e => starCount (rec' e []) (cnt e []) n st
      | .plus e =>
        cnt e [] st +
          match rec' e [] st with
          | .ok _ _ st => starCount (rec' e []) (cnt e []) n st
          | _ => 0
      | .opt e => cnt e [] st
      | .not e => cnt e [] st
      | .lit _ => 0
      | .cls _ _ => 0
      | .any => 0
      | .code _ => 0

/-! ## More fuel -/

/-- `c` agrees with `c'` wherever `f` finishes. -/
def CLe (f : Expr → Env → St → R) (c c' : Expr → Env → St → Nat) : Prop :=
  ∀ e env st, f e env st ≠ .timeout → c' e env st = c e env st

theorem seqCount_mono {f f' : Expr → Env → St → R} {c c' : Expr → Env → St → Nat} (h : Le f f') (hc : CLe f c c')
    (start : St) (es : List Expr) : ∀ vals env st, seqLoop f start es vals env st ≠ .timeout →
      seqCount f' c' es env st = seqCount f c es env st := by
  induction es with
  | nil => intros; rfl
  | cons e es ih =>
    intro vals env st hn
    simp only [seqLoop] at hn
    have he : f e env st ≠ .timeout := by intro hc; rw [hc] at hn; exact hn rfl
    simp only [seqCount, h e env st he, hc e env st he]
    cases hf : f e env st with
    | ok v env st => rw [hf] at hn; simp only [ih _ _ _ hn]
    | _ => rfl

theorem choiceCount_mono {f f' : Expr → Env → St → R} {c c' : Expr → Env → St → Nat} (h : Le f f') (hc : CLe f c c')
    (es : List Expr) : ∀ env st, choiceLoop f es env st ≠ .timeout → choiceCount f' c' es st = choiceCount f c es st := by
  induction es with
  | nil => intros; rfl
  | cons e es ih =>
    intro env st hn
    simp only [choiceLoop] at hn
    have he : f e [] st ≠ .timeout := by intro hc; rw [hc] at hn; exact hn rfl
    simp only [choiceCount, h e [] st he, hc e [] st he]
    cases hf : f e [] st with
    | fail st' => rw [hf] at hn; simp only [ih _ _ hn]
    | _ => rfl

theorem starCount_mono {f f' : St → R} {c c' : St → Nat} (h : ∀ st, f st ≠ .timeout → f' st = f st)
    (hc : ∀ st, f st ≠ .timeout → c' st = c st) (env : Env) : ∀ n m vals st, n ≤ m →
      starLoop f env n vals st ≠ .timeout → starCount f' c' m st = starCount f c n st := by
  intro n
  induction n with
  | zero => intro m vals st _ hn; exact absurd rfl hn
  | succ n ih =>
    intro m vals st hm hn
    cases m with
    | zero => omega
    | succ m =>
      simp only [starLoop] at hn
      have he : f st ≠ .timeout := by intro hc; rw [hc] at hn; exact hn rfl
      simp only [starCount, h st he, hc st he]
      cases hf : f st with
      | ok v env' st' => rw [hf] at hn; simp only [ih m _ st' (by omega) hn]
      | _ => rfl

/-- Once the run finishes, more fuel does not change the count. -/
theorem countExpr_mono (g : RuleName → Expr) : ∀ n m, n ≤ m → CLe (parseExpr g n) (countExpr g n) (countExpr g m) := by
  intro n
  induction n with
  | zero => intro m _ e env st h; exact absurd rfl h
  | succ n ih =>
    intro m hm e env st hn
    cases m with
    | zero => omega
    | succ m =>
      have hp := parseExpr_mono g n m (by omega)
      have hc := ih m (by omega)
      cases e with
      | seq es => simp only [countExpr]; rw [seqCount_mono hp hc st es [] env st hn]
      | choice es => simp only [countExpr]; rw [choiceCount_mono hp hc es env st hn]
      | star e =>
        simp only [countExpr]
        rw [starCount_mono (fun st h => hp e [] st h) (fun st h => hc e [] st h) env n m [] st (by omega) hn]
      | plus e =>
        simp only [parseExpr] at hn
        have he : parseExpr g n e [] st ≠ .timeout := by intro hc; rw [hc] at hn; exact hn rfl
        simp only [countExpr, hp e [] st he, hc e [] st he]
        cases hf : parseExpr g n e [] st with
        | ok v env' st' =>
          rw [hf] at hn
          simp only [starCount_mono (fun st h => hp e [] st h) (fun st h => hc e [] st h) env n m [v] st' (by omega) hn]
        | _ => rfl
      | action e run =>
        simp only [parseExpr] at hn
        have he : parseExpr g n e env st ≠ .timeout := by intro hc; rw [hc] at hn; exact hn rfl
        simp only [countExpr, hc e env st he]
      | ref r =>
        simp only [parseExpr] at hn
        have he : parseExpr g n (g r) [] st ≠ .timeout := by intro hc; rw [hc] at hn; exact hn rfl
        simp only [countExpr, hc _ [] st he]
      | label l e =>
        simp only [parseExpr] at hn
        have he : parseExpr g n e [] st ≠ .timeout := by intro hc; rw [hc] at hn; exact hn rfl
        simp only [countExpr, hc _ [] st he]
      | opt e =>
        simp only [parseExpr] at hn
        have he : parseExpr g n e [] st ≠ .timeout := by intro hc; rw [hc] at hn; exact hn rfl
        simp only [countExpr, hc _ [] st he]
      | not e =>
        simp only [parseExpr] at hn
        have he : parseExpr g n e [] st ≠ .timeout := by intro hc; rw [hc] at hn; exact hn rfl
        simp only [countExpr, hc _ [] st he]
      | lit s => rfl
      | cls a b => rfl
      | any => rfl
      | code run => rfl

/-! ## Lower bounds -/

theorem done_eq {n : Nat} {e : Expr} {env : Env} {st : St} (h : parseExpr rules n e env st ≠ .timeout) :
    parseExpr rules n e env st = ev rules e env st := by
  obtain ⟨N, hN⟩ := ev_eventually rules e env st
  rw [← hN (max n N) (by omega)]
  exact (parseExpr_mono rules n (max n N) (by omega) e env st h).symm

/-- A run on the expression here makes at least `k` calls. -/
def Least (e : Expr) (s : List Char) (k : Nat) : Prop :=
  ∀ env l b n, parseExpr rules n e env (C s l b) ≠ .timeout → k ≤ countExpr rules n e env (C s l b)

/-- The same for a sequence. -/
def LeastSeq (es : List Expr) (s : List Char) (k : Nat) : Prop :=
  ∀ start vals env l b n, seqLoop (parseExpr rules n) start es vals env (C s l b) ≠ .timeout →
    k ≤ seqCount (parseExpr rules n) (countExpr rules n) es env (C s l b)

/-- The same for a repetition. -/
def LeastStar (e : Expr) (s : List Char) (k : Nat) : Prop :=
  ∀ env vals l b n m, starLoop (parseExpr rules n e []) env m vals (C s l b) ≠ .timeout →
    k ≤ starCount (parseExpr rules n e []) (countExpr rules n e []) m (C s l b)

theorem Least.mono {e s k k'} (h : Least e s k) (hk : k' ≤ k) : Least e s k' :=
  fun env l b n hn => Nat.le_trans hk (h env l b n hn)

theorem least_zero {e s} : Least e s 0 := fun _ _ _ _ _ => Nat.zero_le _

/-- A call counts itself. -/
theorem least_pos {e s} : Least e s 1 := by
  intro env l b n hn
  cases n with
  | zero => exact absurd rfl hn
  | succ n => simp only [countExpr]; omega

theorem least_action {e run s k} (h : Least e s k) : Least (.action e run) s k := by
  intro env l b n hn
  cases n with
  | zero => exact absurd rfl hn
  | succ n =>
    simp only [parseExpr] at hn
    have he : parseExpr rules n e env (C s l b) ≠ .timeout := by intro hc; rw [hc] at hn; exact hn rfl
    have := h env l b n he
    simp only [countExpr]; omega

theorem least_ref {r s k} (h : Least (rules r) s k) : Least (.ref r) s (k + 1) := by
  intro env l b n hn
  cases n with
  | zero => exact absurd rfl hn
  | succ n =>
    simp only [parseExpr] at hn
    have he : parseExpr rules n (rules r) [] (C s l b) ≠ .timeout := by intro hc; rw [hc] at hn; exact hn rfl
    have := h [] l b n he
    simp only [countExpr]; omega

/-- A rule asks for what its expression asks for. -/
theorem rule_least {r s k} (h : Least (rules r) s k) : Least (.ref r) s k := (least_ref h).mono (Nat.le_succ k)

theorem least_label {x e s k} (h : Least e s k) : Least (.label x e) s k := by
  intro env l b n hn
  cases n with
  | zero => exact absurd rfl hn
  | succ n =>
    simp only [parseExpr] at hn
    have he : parseExpr rules n e [] (C s l b) ≠ .timeout := by intro hc; rw [hc] at hn; exact hn rfl
    have := h [] l b n he
    simp only [countExpr]; omega

theorem least_opt {e s k} (h : Least e s k) : Least (.opt e) s k := by
  intro env l b n hn
  cases n with
  | zero => exact absurd rfl hn
  | succ n =>
    simp only [parseExpr] at hn
    have he : parseExpr rules n e [] (C s l b) ≠ .timeout := by intro hc; rw [hc] at hn; exact hn rfl
    have := h [] l b n he
    simp only [countExpr]; omega

/-- The first alternative is tried. -/
theorem least_choice {e es s k} (h : Least e s k) : Least (.choice (e :: es)) s k := by
  intro env l b n hn
  cases n with
  | zero => exact absurd rfl hn
  | succ n =>
    simp only [parseExpr, choiceLoop] at hn
    have he : parseExpr rules n e [] (C s l b) ≠ .timeout := by intro hc; rw [hc] at hn; exact hn rfl
    have := h [] l b n he
    simp only [countExpr, choiceCount]; omega

/-- If it does not match, the others are tried as well. -/
theorem least_next {e es s k k'} (hno : No e s) (h : Least e s k) (h' : Least (.choice es) s k') :
    Least (.choice (e :: es)) s (k + k') := by
  intro env l b n hn
  cases n with
  | zero => exact absurd rfl hn
  | succ n =>
    simp only [parseExpr, choiceLoop] at hn
    have he : parseExpr rules n e [] (C s l b) ≠ .timeout := by intro hc; rw [hc] at hn; exact hn rfl
    have h1 := h [] l b n he
    rw [done_eq he, hno [] l b] at hn
    simp only [] at hn
    have h2 := h' env l b (n + 1) (by simp only [parseExpr]; exact hn)
    simp only [countExpr] at h2
    simp only [countExpr, choiceCount, done_eq he, hno [] l b]
    have : ({ C s l b with ling := (C s l b).ling } : St) = C s l b := rfl
    rw [this]
    omega

theorem least_later {e es s k} (hno : No e s) (h' : Least (.choice es) s k) : Least (.choice (e :: es)) s k :=
  (least_next hno least_zero h').mono (by omega)

theorem least_seq {es s k} (h : LeastSeq es s k) : Least (.seq es) s k := by
  intro env l b n hn
  cases n with
  | zero => exact absurd rfl hn
  | succ n =>
    have := h (C s l b) [] env l b n (by simpa only [parseExpr] using hn)
    simp only [countExpr]; omega

theorem leastSeq_zero {es s} : LeastSeq es s 0 := fun _ _ _ _ _ _ _ => Nat.zero_le _

theorem leastSeq_here {e es s k} (h : Least e s k) : LeastSeq (e :: es) s k := by
  intro start vals env l b n hn
  simp only [seqLoop] at hn
  have he : parseExpr rules n e env (C s l b) ≠ .timeout := by intro hc; rw [hc] at hn; exact hn rfl
  have := h env l b n he
  simp only [seqCount]; omega

/-- After an expression that matches, whatever labels it sets. -/
theorem leastSeq_next {e es s s' k k'} (hok : ∀ env l b, ∃ v env' l', ev rules e env (C s l b) = .ok v env' (C s' l' b))
    (h : Least e s k) (h' : LeastSeq es s' k') : LeastSeq (e :: es) s (k + k') := by
  intro start vals env l b n hn
  simp only [seqLoop] at hn
  have he : parseExpr rules n e env (C s l b) ≠ .timeout := by intro hc; rw [hc] at hn; exact hn rfl
  have h1 := h env l b n he
  obtain ⟨v, env', l', h2⟩ := hok env l b
  rw [done_eq he, h2] at hn
  simp only [] at hn
  have h3 := h' _ _ _ _ _ _ hn
  simp only [seqCount, done_eq he, h2]
  omega

theorem leastSeq_skip {e es s s' k} (hok : Skips e s s') (h' : LeastSeq es s' k) : LeastSeq (e :: es) s k := by
  have := leastSeq_next (k := 0) (k' := k) (fun env l b => by
    obtain ⟨v, hv⟩ := hok env l b; exact ⟨v, env, l, hv⟩) least_zero h'
  rwa [Nat.zero_add] at this

theorem leastSeq_gives {x e es s P s' k} (hok : Gives e s P s') (h' : LeastSeq es s' k) : LeastSeq (.label x e :: es) s k := by
  have := leastSeq_next (e := .label x e) (k := 0) (k' := k) (fun env l b => by
    obtain ⟨v, _, hv⟩ := hok [] l b
    refine ⟨v, (x, v) :: env, l, ?_⟩
    rw [ev_label, hv]; rfl) least_zero h'
  rwa [Nat.zero_add] at this

theorem leastSeq_label {x e es s v h s' k k'} (hok : Ok e s v h s') (hl : Least e s k) (h' : LeastSeq es s' k') :
    LeastSeq (.label x e :: es) s (k + k') := by
  have := leastSeq_next (e := .label x e) (k := k) (k' := k') (fun env l b => by
    exact ⟨v, (x, v) :: env, l ++ h.map .struct, by rw [ev_label, hok]; rfl⟩) (least_label hl) h'
  intro start vals env l b n hn
  have := this start vals env l b n hn
  omega

theorem leastSeq_lit {t : String} {es s s1 k} (h1 : s = t.toList ++ s1) (h' : LeastSeq es s1 k) : LeastSeq (.lit t :: es) s k := by
  subst h1
  have := leastSeq_next (e := .lit t) (s := t.toList ++ s1) (k := 0) (k' := k) (fun env l b =>
    ⟨_, env, l, lit_ok t env s1 l b⟩) least_zero h'
  rwa [Nat.zero_add] at this

theorem least_star {e s k} (h : LeastStar e s k) : Least (.star e) s k := by
  intro env l b n hn
  cases n with
  | zero => exact absurd rfl hn
  | succ n =>
    have := h env [] l b n n (by simpa only [parseExpr] using hn)
    simp only [countExpr]; omega

theorem leastStar_last {e s k} (h : Least e s k) : LeastStar e s k := by
  intro env vals l b n m hn
  cases m with
  | zero => exact absurd rfl hn
  | succ m =>
    simp only [starLoop] at hn
    have he : parseExpr rules n e [] (C s l b) ≠ .timeout := by intro hc; rw [hc] at hn; exact hn rfl
    have := h [] l b n he
    simp only [starCount]; omega

theorem leastStar_next {e s v h s' k k'} (hok : Ok e s v h s') (hl : Least e s k) (h' : LeastStar e s' k') :
    LeastStar e s (k + k') := by
  intro env vals l b n m hn
  cases m with
  | zero => exact absurd rfl hn
  | succ m =>
    simp only [starLoop] at hn
    have he : parseExpr rules n e [] (C s l b) ≠ .timeout := by intro hc; rw [hc] at hn; exact hn rfl
    have h1 := hl [] l b n he
    rw [done_eq he, hok] at hn
    simp only [] at hn
    have h3 := h' _ _ _ _ _ _ hn
    simp only [starCount, done_eq he, hok [] l b]
    omega

theorem items_least {α : Type} {e : Expr} {out : α → Val} {hs : α → List Struct} {wk : α → Nat} {k : Nat} :
    ∀ {as : List α} {s s' : List Char}, Items (fun a s s' => Ok e s (out a) (hs a) s' ∧ Least e s (wk a)) as s s' →
      Least e s' k → LeastStar e s ((as.map wk).sum + k)
  | [], s, s', h, hk => by
    obtain rfl := h
    simpa using leastStar_last hk
  | a :: as, s, s', h, hk => by
    obtain ⟨s1, ⟨h1, h2⟩, h3⟩ := h
    have := leastStar_next h1 h2 (items_least h3 hk)
    simpa [Nat.add_assoc] using this

/-- Items each of which starts with a gap. -/
theorem items_gap_least {α : Type} {e : Expr} {out : α → Val} {hs : α → List Struct} {f : α → List Piece} {wk : α → Nat} {k : Nat}
    (hitem : ∀ a x s s', Gap x s → Layout (f a) s s' → Ok e x (out a) (hs a) s' ∧ Least e x (wk a)) {as : List α} :
    ∀ {x s s' : List Char}, Gap x s → Layout (as.flatMap (fun a => f a ++ [.gap])) s s' →
      (∀ y, Gap y s' → Least e y k) → LeastStar e x ((as.map wk).sum + k) := by
  have key : ∀ (x s s' : List Char), Gap x s → Layout (as.flatMap (fun a => f a ++ [.gap])) s s' →
      ∃ y, Gap y s' ∧ Items (fun a s s' => Ok e s (out a) (hs a) s' ∧ Least e s (wk a)) as x y := by
    induction as with
    | nil => rintro x s s' hg rfl; exact ⟨x, hg, rfl⟩
    | cons a as ih =>
      intro x s s' hg h
      simp only [List.flatMap_cons, layout_append] at h
      obtain ⟨s2, ⟨s1, h1, _, h2, rfl⟩, h3⟩ := h
      obtain ⟨y, hy, hi⟩ := ih s1 _ s' h2 h3
      exact ⟨y, hy, s1, hitem a x s s1 hg h1, hi⟩
  intro x s s' hg h hno
  obtain ⟨y, hy, hi⟩ := key x s s' hg h
  exact items_least hi (hno y hy)

end Verif.Peg

/-! ## The work a syntax tree asks for -/

namespace Verif.Syntax

section
variable {ι : Type} (w : ι → Nat)

/-- Structs declared in place count. -/
def Ref.work : Ref ι → Nat
  | .name _ => 0
  | .decl d => w d

/-- Those of an element type. -/
def Elem.work : Elem ι → Nat
  | .ref r => r.work w
  | _ => 0

/-- The alternatives are arrays of constant length, arrays of variable length, ..., structs
(trunnel.pigeon `StructMember`, `SMArray`), so an element type is parsed once, twice or three times. -/
def SField.work : SField ι → Nat
  | .fixed b _ _ => b.work w
  | .var b _ _ => 2 * b.work w
  | .struct r _ => 3 * r.work w
  | _ => 0

/-- An array without length is tried as each of these fields first. -/
def Extent.work : Extent ι → Nat
  | .dots => 0
  | .rest b _ => 4 * b.work w

/-- The fields of a union case. -/
def Body.work : Body ι → Nat
  | .fields fs e => (fs.map (SField.work w)).sum + (e.map (Extent.work w)).getD 0
  | _ => 0

/-- Members. -/
def SMember.work : SMember ι → Nat
  | .field f => f.work w
  | .ptr _ => 0
  | .union _ _ _ cs => (cs.map fun c => c.body.work w).sum

/-- An array without length is tried as each of the members first. -/
def Ending.work : Ending ι → Nat
  | .eos => 0
  | .rest b _ => 4 * b.work w

/-- A struct: one for itself, and its members. -/
def SStruct.work (s : SStruct ι) : Nat := 1 + (s.members.map (SMember.work w)).sum + (s.ending.map (Ending.work w)).getD 0

end

/-- Structs with structs declared in place. -/
def Tree.work : (k : Nat) → Tree k → Nat
  | 0, t => nomatch t
  | k + 1, t => SStruct.work (Tree.work k) t

/-- Declarations. -/
def Decl.work {k : Nat} : Decl (Tree k) → Nat
  | .struct s _ => s.work (Tree.work k)
  | _ => 0

end Verif.Syntax

namespace Verif.Peg
open Verif Verif.Ast Verif.Syntax

section
variable {ι : Type} {sp : ι → List Piece} {mn : ι → Struct × List Struct} {w : ι → Nat}

variable (H : Inner sp mn) (W : ∀ d s s', Layout (sp d) s s' → Least (.ref .StructDecl) s (w d))
include H W

omit H in
theorem ref_least {r : Ref ι} {s s' : List Char} (h : Layout (r.spell sp) s s') : Least (.ref .StructRef) s (r.work w) := by
  cases r with
  | name n => exact least_zero
  | decl d => exact rule_least (r := .StructRef) (show Least rStructRef s (w d) from
      least_choice (least_action (least_seq (leastSeq_here (least_label (W _ _ _ h))))))

theorem elem_least {e : Elem ι} {s s' : List Char} (h : Layout (e.spell sp) s s') : Least (.ref .ArrayBase) s (e.work w) := by
  cases e with
  | int w => exact least_zero
  | char => exact least_zero
  | ref r =>
    have hl := ref_least W h
    obtain ⟨t, rfl⟩ := ref_starts H h
    refine rule_least (r := .ArrayBase) (show Least rArrayBase _ _ from least_action (least_label
      (least_later (intType_no' (stops_cons rfl)) (least_later ?_ (least_choice hl)))))
    exact no_ref (show No rCharType _ from no_action (no_lit (not_prefix (t := "char") rfl (stops_cons rfl))))

theorem fixed_least {e : Elem ι} {s s' : List Char} (h : Layout (e.spell sp) s s') : Least (.ref .SMFixedArray) s (e.work w) :=
  rule_least (r := .SMFixedArray) (show Least rSMFixedArray _ _ from least_action (least_seq (leastSeq_here (least_label (elem_least H W h)))))

theorem var_least {e : Elem ι} {s s' : List Char} (h : Layout (e.spell sp) s s') : Least (.ref .SMVarArray) s (e.work w) :=
  rule_least (r := .SMVarArray) (show Least rSMVarArray _ _ from least_action (least_seq (leastSeq_here (least_label (elem_least H W h)))))

theorem rem_least {e : Elem ι} {s s' : List Char} (h : Layout (e.spell sp) s s') : Least (.ref .SMRemainder) s (e.work w) :=
  rule_least (r := .SMRemainder) (show Least rSMRemainder _ _ from least_action (least_seq (leastSeq_here (least_label (elem_least H W h)))))

omit H in
theorem structRule_least {r : Ref ι} {s s' : List Char} (h : Layout (r.spell sp) s s') : Least (.ref .SMStruct) s (r.work w) :=
  rule_least (r := .SMStruct) (show Least rSMStruct _ _ from least_action (least_seq (leastSeq_here (least_label (ref_least W h)))))

/-- A length is not taken for a constant, or there is none: both kinds of arrays are tried. -/
theorem array_least {e : Elem ι} {s s' : List Char} (h : Layout (e.spell sp) s s') (hno : No (.ref .SMFixedArray) s) :
    Least (.ref .SMArray) s (2 * e.work w) :=
  (rule_least (r := .SMArray) (show Least rSMArray _ (e.work w + e.work w) from least_action (least_label
    (least_next hno (fixed_least H W h) (least_choice (var_least H W h)))))).mono (by omega)

omit W in
/-- A struct without brackets, or with empty ones, is not an array of constant length. -/
theorem fixed_no {r : Ref ι} {n : String} {s s1 s2 s3 : List Char} (h : Layout (r.spell sp) s s1) (h1 : Piece.gap1.At s1 s2)
    (h2 : (Piece.id n).At s2 s3) (hc : After (· == 'c') s3) (hi : ∀ s4, skip s3 = '[' :: s4 → Stops isIntStart s4) :
    No (.ref .SMFixedArray) s := by
  refine rule_no (r := .SMFixedArray) rfl (nochain_labelled (elem_ok H (e := .ref r) h ⟨n, s2, s3, h1, h2, hc⟩)
    (nochain_skip (skips_gap1 h1 (id_fresh h2)) (nochain_labelled (id_ok h2) (nochain_skip (skips_here _)
      (nochain_lit (fun s4 h4 => nochain_label (integer_no (hi s4 h4))))))))

/-- The calls for a field, by the rules for members of structs and by those for fields of unions. -/
theorem field_least {f : SField ι} {s s1 t : List Char} (h : Layout (f.spell sp) s s1) (hg : Gap s1 (';' :: t)) :
    Least (.choice [.ref .SMArray, .ref .SMInteger, .ref .SMPosition, .ref .SMString, .ref .SMStruct, .ref .SMUnion]) s (f.work w) ∧
    Least (.choice [.ref .SMArray, .ref .SMInteger, .ref .SMString, .ref .SMStruct]) s (f.work w) := by
  cases f with
  | fixed b n k =>
    simp only [SField.spell, layout_append] at h
    obtain ⟨_, ⟨_, ⟨_, h, _⟩, _⟩, _⟩ := h
    have : Least (.ref .SMArray) s (b.work w) := rule_least (r := .SMArray) (show Least rSMArray _ _ from least_action (least_label
      (least_choice (fixed_least H W h))))
    exact ⟨least_choice this, least_choice this⟩
  | var b n l =>
    have h' := h
    obtain ⟨_, ⟨hl, rfl⟩, h⟩ := h
    have hno := (var_ok H h hl).1
    simp only [SField.spell, layout_append, List.cons_append] at h'
    obtain ⟨_, ⟨_, rfl⟩, h'⟩ := h'
    simp only [layout_append] at h'
    obtain ⟨_, ⟨_, ⟨_, h, _⟩, _⟩, _⟩ := h'
    have := array_least H W h hno
    exact ⟨least_choice this, least_choice this⟩
  | int w n c => exact ⟨least_zero, least_zero⟩
  | str n => exact ⟨least_zero, least_zero⟩
  | struct r n =>
    simp only [SField.spell, layout_append] at h
    obtain ⟨u, h, u1, h1, u2, h2, rfl⟩ := h
    have hno := array_no_plain H (e := .ref r) h h1.1 h2 (after_gap hg (stops_cons rfl) (stops_cons rfl)) (Or.inl h1)
    have ha := array_least H W (e := .ref r) h (fixed_no H h h1 h2 (after_gap hg (stops_cons rfl) (stops_cons rfl)) (fun s4 h4 => by
      rw [gap_to hg (stops_cons rfl)] at h4; cases h4))
    have hs := structRule_least W h
    obtain ⟨t', rfl⟩ := ref_starts H h
    refine ⟨(least_next hno ha (least_later (integerRule_no (intType_no' (stops_cons rfl))) (least_later (position_no (stops_cons rfl))
      (least_later (string_no (stops_cons rfl)) (least_choice hs))))).mono ?_,
      (least_next hno ha (least_later (integerRule_no (intType_no' (stops_cons rfl)))
      (least_later (string_no (stops_cons rfl)) (least_choice hs)))).mono ?_⟩
    all_goals simp only [SField.work, Elem.work]; omega

/-- The calls for an array without length that is tried as a field. -/
theorem endField_least {e : Elem ι} {n : String} {s s' : List Char} (h : Layout (remainder sp e n) s s') :
    Least (.choice [.ref .SMArray, .ref .SMInteger, .ref .SMPosition, .ref .SMString, .ref .SMStruct, .ref .SMUnion]) s (3 * e.work w) ∧
    Least (.choice [.ref .SMArray, .ref .SMInteger, .ref .SMString, .ref .SMStruct]) s (3 * e.work w) := by
  have hno := (rem_ok H h).1
  simp only [remainder, layout_append] at h
  obtain ⟨u, h, u1, h1, u2, h2, u3, h3, u4, rfl, u5, h5, u6, rfl, rfl⟩ := h
  cases e with
  | int w => exact ⟨least_zero, least_zero⟩
  | char => exact ⟨least_zero, least_zero⟩
  | ref r =>
    have ha := array_least H W (e := .ref r) h (fixed_no H h h1 h2 (after_gap h3 (stops_cons rfl) (stops_cons rfl)) (fun s4 h4 => by
      rw [gap_to h3 (stops_cons rfl)] at h4
      obtain rfl := (List.cons.inj h4).2
      exact gap_stops (fun c hc => by
        cases h : isIntStart c with
        | false => rfl
        | true => rw [intStart_fresh c h] at hc; cases hc) h5 (stops_cons rfl)))
    have hs := structRule_least W h
    obtain ⟨t', rfl⟩ := ref_starts H h
    refine ⟨(least_next hno ha (least_later (integerRule_no (intType_no' (stops_cons rfl))) (least_later (position_no (stops_cons rfl))
      (least_later (string_no (stops_cons rfl)) (least_choice hs))))).mono ?_,
      (least_next hno ha (least_later (integerRule_no (intType_no' (stops_cons rfl)))
      (least_later (string_no (stops_cons rfl)) (least_choice hs)))).mono ?_⟩
    all_goals simp only [Elem.work]; omega

theorem unionField_least {f : SField ι} {x s s' : List Char} (hg : Gap x s) (h : Layout (f.spell sp ++ [.gap, .tok ";"]) s s') :
    Least (.ref .UnionField) x (f.work w) := by
  rw [layout_append] at h
  obtain ⟨s1, h1, s2, h2, s3, rfl, rfl⟩ := h
  exact rule_least (r := .UnionField) (show Least rUnionField _ _ from least_action (least_seq (leastSeq_skip
    (skips_gap hg ((field_starts H h1).stops fieldStart_fresh)) (leastSeq_here (least_label (field_least H W h1 h2).2)))))

theorem structMember_field_least {f : SField ι} {x s s' : List Char} (hg : Gap x s) (h : Layout (f.spell sp ++ [.gap, .tok ";"]) s s') :
    Least (.ref .StructMember) x (f.work w) := by
  rw [layout_append] at h
  obtain ⟨s1, h1, s2, h2, s3, rfl, rfl⟩ := h
  exact rule_least (r := .StructMember) (show Least rStructMember _ _ from least_action (least_seq (leastSeq_skip
    (skips_gap hg ((field_starts H h1).stops fieldStart_fresh)) (leastSeq_here (least_label (field_least H W h1 h2).1)))))

/-! ### Unions -/

theorem extent_least {e : Extent ι} {s s' : List Char} (h : Layout (e.spell sp) s s') :
    ∃ k k', e.work w = k + k' ∧ (∀ y, Gap y s → Least (.ref .UnionField) y k) ∧ Least (.ref .ExtentSpec) s k' := by
  cases e with
  | dots => exact ⟨0, 0, rfl, fun _ _ => least_zero, least_zero⟩
  | rest b n =>
    have hok := extent_ok H h
    simp only [Extent.spell, layout_append] at h
    obtain ⟨u, h, u1, h1, u2, rfl, rfl⟩ := h
    refine ⟨3 * b.work w, b.work w, by simp only [Extent.work]; omega, fun y hy => ?_, ?_⟩
    · exact rule_least (r := .UnionField) (show Least rUnionField _ _ from least_action (least_seq (leastSeq_skip
        (skips_gap hy hok.1.1) (leastSeq_here (least_label (endField_least H W h).2)))))
    · simp only [remainder, layout_append] at h
      obtain ⟨_, h, _⟩ := h
      have hst := elem_starts H h
      refine rule_least (r := .ExtentSpec) (show Least rExtentSpec _ _ from least_later ?_ (least_choice (least_action (least_seq
        (leastSeq_here (least_label (rem_least H W h)))))))
      exact no_action (no_seq (nochain_here (no_lit (not_prefix (t := "...") (c := '.') rfl (hst.stops (fun c hc => by
        simp only [isElemStart, Bool.or_eq_true, beq_iff_eq] at hc
        rcases hc with (rfl | rfl) | rfl <;> rfl))))))

theorem unionFields_least {fs : List (SField ι)} {e : Option (Extent ι)} {s s' : List Char}
    (h : Layout ((Body.fields fs e).spell sp) s s') (hs : Starts isCaseEnd s') :
    Least (.ref .UnionFields) s ((Body.fields fs e).work w) := by
  simp only [Body.spell, layout_append] at h
  obtain ⟨s1, h1, h2⟩ := h
  rw [fieldsSpell_eq] at h1
  have hcaseEnd : EndField s' := endField_first (hs.stops caseEnd_fresh) (hs.stops caseEnd_field)
  cases e with
  | none =>
    obtain rfl := h2
    have := items_gap_least (f := fun f : SField ι => f.spell sp ++ [.gap, .tok ";"]) (out := fun f => .field (f.field mn))
      (hs := SField.hoist mn) (wk := SField.work w) (k := 0) (e := .ref .UnionField)
      (fun a x s s' hg hl => ⟨unionField_ok H hg hl, unionField_least H W hg hl⟩) (.done s)
      (by simpa using h1) (fun y hy => least_zero)
    exact rule_least (r := .UnionFields) (show Least rUnionFields _ _ from least_action (least_seq (leastSeq_here (least_label
      (least_star this)))))
  | some e =>
    simp only [layout_append] at h2
    obtain ⟨s2, h2, s3, h3, rfl⟩ := h2
    have hend := (extent_ok H h2).1
    obtain ⟨k, k', hk, hfirst, hext⟩ := extent_least H W h2
    have hleast := items_gap_least (f := fun f : SField ι => f.spell sp ++ [.gap, .tok ";"]) (out := fun f => .field (f.field mn))
      (hs := SField.hoist mn) (wk := SField.work w) (k := k) (e := .ref .UnionField)
      (fun a x s s' hg hl => ⟨unionField_ok H hg hl, unionField_least H W hg hl⟩) (.done s)
      (by simpa using h1) hfirst
    obtain ⟨y, hy, hstar⟩ := items_gap (f := fun f : SField ι => f.spell sp ++ [.gap, .tok ";"]) (out := fun f => .field (f.field mn))
      (hs := SField.hoist mn) (e := .ref .UnionField) (fun a x s s' hg hl => unionField_ok H hg hl) (.done s)
      (by simpa using h1) (fun y hy => unionField_no hy hend)
    refine (rule_least (r := .UnionFields) (show Least rUnionFields _ _ from least_action (least_seq (leastSeq_label hstar
      (least_star hleast) (leastSeq_skip (skips_gap hy hend.1) (leastSeq_here (least_label (least_opt hext)))))))).mono ?_
    simp only [Body.work, Option.map_some, Option.getD_some]
    omega

theorem unionBody_least {b : Body ι} {s s' : List Char} (h : Layout (b.spell sp) s s') (hs : Starts isCaseEnd s') :
    Least (.ref .UnionBody) s (b.work w) := by
  cases b with
  | empty => exact least_zero
  | fail => exact least_zero
  | ignore => exact least_zero
  | fields fs e =>
    have hl := unionFields_least H W h hs
    have hst := body_starts H h hs
    have hfresh := hst.stops bodyStart_fresh
    exact rule_least (r := .UnionBody) (show Least rUnionBody _ _ from least_later
      (no_action (no_seq (nochain_skip (skips_gap (.done _) hfresh) (nochain_here (no_lit (not_prefix (t := ";") (c := ';') rfl
        (hst.stops (fun c hc => bodyStart_not c hc _ (by simp)))))))))
      (least_later (no_action (no_seq (nochain_here (no_lit (not_prefix (t := "fail") (c := 'f') rfl (hst.stops (fun c hc => bodyStart_not c hc _ (by simp))))))))
      (least_later (no_action (no_seq (nochain_here (no_lit (not_prefix (t := "ignore") (c := 'i') rfl (hst.stops (fun c hc => bodyStart_not c hc _ (by simp))))))))
      (least_choice (least_action (least_label hl))))))

theorem unionMember_least {c : SCase ι} {x s s' : List Char} (hg : Gap x s) (h : Layout (c.spell sp) s s') (hs : Starts isCaseEnd s') :
    Least (.ref .UnionMember) x (c.body.work w) := by
  have hst := case_starts H h
  obtain ⟨cs, b⟩ := c
  simp only [SCase.spell, layout_append] at h
  obtain ⟨s4, ⟨s1, h1, s2, h2, s3, rfl, s4', h3, rfl⟩, h4⟩ := h
  obtain ⟨hf, -⟩ := unionBody_ok H h4 hs
  have hcase : Ok (.ref .UnionCase) s ((cs.map Val.intList).getD .nil) [] s1 := by
    refine rule_choice (r := .UnionCase) rfl ?_
    cases cs with
    | none =>
      obtain ⟨_, rfl, rfl⟩ := h1
      refine ok_next (no_action (no_label (rule_no (r := .IntList) rfl (nochain_label (rule_no (r := .IntListMember) rfl (nochain_label
        (integer_no (stops_cons rfl)))))))) (ok_choice (v := .nil) (h := []) ?_)
      intro env l b
      rw [ev_action, lit_ok]
      simp [actRes, onUnionCase5, C]
    | some k =>
      exact ok_alt_lab (intList_ok h1 (afterRange_gap h2 rfl rfl rfl) (after_gap h2 (stops_cons rfl) (stops_cons rfl))) (fun _ _ => rfl)
  exact (rule_least (r := .UnionMember) (show Least rUnionMember _ _ from least_action (least_seq (leastSeq_skip
    (skips_gap hg (hst.stops caseEnd_fresh)) (leastSeq_label hcase least_zero (leastSeq_skip (skips_gap h2 (stops_cons rfl)) (leastSeq_lit rfl
      (leastSeq_skip (skips_gap h3 hf) (leastSeq_here (least_label (unionBody_least H W h4 hs))))))))))).mono (by simp)

theorem cases_least {cs : List (SCase ι)} : ∀ {s s' : List Char}, Layout (cs.flatMap (fun c => c.spell sp)) s s' → Starts isCaseEnd s' →
    Items (fun c s s' => Ok (.ref .UnionMember) s (.case ⟨c.case, c.body.leaves mn⟩) (c.body.hoist mn) s' ∧
      Least (.ref .UnionMember) s (c.body.work w)) cs s s' := by
  induction cs with
  | nil => rintro s s' rfl hs; rfl
  | cons c cs ih =>
    intro s s' h hs
    simp only [List.flatMap_cons, layout_append] at h
    obtain ⟨s1, h1, h2⟩ := h
    have h3 := (cases_items H h2 hs).1
    exact ⟨s1, ⟨unionMember_ok H (.done s) h1 h3, unionMember_least H W (.done s) h1 h3⟩, ih h2 hs⟩

theorem union_least {n : String} {tag : IDRef} {len : Option LengthConstraint} {cs : List (SCase ι)} {s s' : List Char}
    (h : Layout ((SMember.union n tag len cs).spell sp) s s') : Least (.ref .SMUnion) s ((SMember.union n tag len cs).work w) := by
  rw [union_spell] at h
  simp only [layout_append] at h
  obtain ⟨v1, ⟨v2, ⟨v3, ⟨v4, ⟨v5, ⟨v6, ⟨u0, rfl, u1, h1, u2, h2, u3, h3, u4, rfl, rfl⟩, h4⟩, u5, rfl, u6, h6, rfl⟩, h7⟩, u7, rfl, u8, h9, rfl⟩, h10⟩, u9, rfl, rfl⟩ := h
  have hst := (cases_items H h10 ⟨'}', _, rfl, rfl⟩).1
  have hitems := items_least (k := 0) (cases_least H W h10 ⟨'}', _, rfl, rfl⟩) least_zero
  have htail : LeastSeq [.lit "{", .ref .gap, .label "cs" (.star (.ref .UnionMember)), .ref .gap, .lit "}"]
      ("{".toList ++ u7) ((cs.map fun c => c.body.work w).sum + 0) :=
    leastSeq_lit rfl (leastSeq_skip (skips_gap h9 (hst.stops caseEnd_fresh)) (leastSeq_here (least_label (least_star hitems))))
  refine (rule_least (r := .SMUnion) (show Least rSMUnion _ (0 + (0 + (0 + ((cs.map fun c => c.body.work w).sum + 0)))) from
    least_action (least_seq (leastSeq_lit rfl (leastSeq_skip (skips_gap1 h1 (id_fresh h2)) (leastSeq_label (id_ok h2) least_zero
    (leastSeq_skip (skips_gap h3 (stops_cons rfl)) (leastSeq_lit rfl (leastSeq_label (idRef_ok h4 (stops_cons rfl)) least_zero
      (leastSeq_lit rfl ?_)))))))))).mono (by simp [SMember.work])
  cases len with
  | none =>
    obtain rfl := h7
    refine leastSeq_skip (skips_gap h6 (stops_cons rfl)) (leastSeq_label (ok_opt_nil ?_) least_zero (leastSeq_skip (skips_gap (.done _) (stops_cons rfl))
      htail))
    exact rule_no (r := .UnionLength) rfl (nochain_here (no_lit (not_prefix (t := "with") rfl (stops_cons rfl))))
  | some k =>
    simp only [lenSpell, layout_append] at h7
    obtain ⟨w1, ⟨w2, ⟨w3, rfl, w4, h11, w5, rfl, w6, h12, rfl⟩, h13⟩, w7, h14, rfl⟩ := h7
    refine leastSeq_skip (skips_gap h6 (stops_cons rfl)) (leastSeq_label (v := lengthVal k) (h := []) (ok_opt ?_) least_zero
      (leastSeq_skip (skips_gap h14 (stops_cons rfl)) htail))
    exact rule_ok (r := .UnionLength) rfl (chain_lit rfl (chain_skip (skips_gap1 h11 (stops_cons rfl)) (chain_lit rfl
      (chain_skip (skips_gap1 h12 ((length_starts h13).stops lengthStart_fresh)) (chain_label
        (length_ok h13 (gap_word h14 (stops_cons rfl)) (gap_stops (fun c hc => by
          cases h : (c == '.') with
          | false => rfl
          | true => simp only [beq_iff_eq] at h; subst h; cases hc) h14 (stops_cons rfl)))
        (chain_nil (fun _ _ => rfl)))))))

/-! ### Members and structs -/

theorem structMember_least {m : SMember ι} {x s s' : List Char} (hg : Gap x s) (h : Layout (m.spell sp ++ [.gap, .tok ";"]) s s') :
    Least (.ref .StructMember) x (m.work w) := by
  cases m with
  | field f => exact structMember_field_least H W hg h
  | ptr n => exact least_zero
  | union n t l cs =>
    rw [layout_append] at h
    obtain ⟨s1, h1, s2, h2, s3, rfl, rfl⟩ := h
    have hl := union_least H W h1
    rw [union_spell] at h1
    obtain ⟨u0, rfl, -⟩ := h1
    have hint : No (.ref .IntType) ("union".toList ++ u0) := intType_no (by rintro t ⟨⟩; exact stops_cons rfl)
    exact rule_least (r := .StructMember) (show Least rStructMember _ _ from least_action (least_seq (leastSeq_skip
      (skips_gap hg (stops_cons rfl)) (leastSeq_here (least_label
      (least_later (array_no (elem_no hint (stops_cons rfl))) (least_later (integerRule_no hint) (least_later (position_no (stops_cons rfl))
        (least_later (string_no (stops_cons rfl)) (least_later (structRule_no (stops_cons rfl)) (least_choice hl)))))))))))

theorem ending_least {e : Ending ι} {s s' : List Char} (h : Layout (e.spell sp) s s') :
    ∃ k k', e.work w = k + k' ∧ (∀ y, Gap y s → Least (.ref .StructMember) y k) ∧ Least (.ref .StructEnding) s k' := by
  cases e with
  | eos => exact ⟨0, 0, rfl, fun _ _ => least_zero, least_zero⟩
  | rest b n =>
    have hok := ending_ok H h
    simp only [Ending.spell, layout_append] at h
    obtain ⟨u, h, u1, h1, u2, rfl, u3, h3, rfl⟩ := h
    refine ⟨3 * b.work w, b.work w, by simp only [Ending.work]; omega, fun y hy => ?_, ?_⟩
    · exact rule_least (r := .StructMember) (show Least rStructMember _ _ from least_action (least_seq (leastSeq_skip
        (skips_gap hy hok.1.1) (leastSeq_here (least_label (endField_least H W h).1)))))
    · simp only [remainder, layout_append] at h
      obtain ⟨_, h, _⟩ := h
      exact rule_least (r := .StructEnding) (show Least rStructEnding _ _ from least_action (least_seq (leastSeq_skip
        (skips_gap (.done _) hok.1.1) (leastSeq_here (least_label (least_choice (rem_least H W h)))))))

theorem structDecl_least {d : SStruct ι} {s s' : List Char} (h : Layout (d.spell sp) s s') :
    Least (.ref .StructDecl) s (d.work w) := by
  obtain ⟨n, k, ms, e⟩ := d
  simp only [SStruct.spell, layout_append] at h
  obtain ⟨v1, ⟨v2, ⟨v3, ⟨v4, ⟨v5, h1, h2⟩, u1, h3, u2, rfl, u3, h4, rfl⟩, h5⟩, h6⟩, u4, rfl, rfl⟩ := h
  rw [membersSpell_eq] at h5
  have start {k : Nat} (hl : LeastSeq [.label "ms" (.star (.ref .StructMember)), .ref .gap, .label "e"
      (.opt (.ref .StructEnding)), .ref .gap, .lit "}"] u2 k) : Least (.ref .StructDecl) s (k + 1) :=
    (least_ref (r := .StructDecl) (show Least rStructDecl _ (0 + k) from least_action (least_seq (leastSeq_label (structId_ok h1) least_zero
      (leastSeq_gives (contexts_ok h2 h3 rfl (by decide) (by decide)) (leastSeq_skip (skips_gap h3 (stops_cons rfl)) (leastSeq_lit rfl hl))))))).mono
      (by omega)
  cases e with
  | none =>
    obtain rfl := h6
    have := items_gap_least (f := fun f : SMember ι => f.spell sp ++ [.gap, .tok ";"]) (out := fun m => memberVal (m.member mn))
      (hs := SMember.hoist mn) (wk := SMember.work w) (k := 0) (e := .ref .StructMember)
      (fun a x s s' hg hl => ⟨structMember_ok H hg hl, structMember_least H W hg hl⟩) h4
      (by simpa using h5) (fun y hy => least_zero)
    refine (start (leastSeq_here (least_label (least_star this)))).mono ?_
    simp only [SStruct.work, Option.map_none, Option.getD_none]
    omega
  | some e =>
    obtain ⟨hend, -⟩ := ending_ok H h6
    obtain ⟨k1, k2, hk, hfirst, hending⟩ := ending_least H W h6
    have hleast := items_gap_least (f := fun f : SMember ι => f.spell sp ++ [.gap, .tok ";"]) (out := fun m => memberVal (m.member mn))
      (hs := SMember.hoist mn) (wk := SMember.work w) (k := k1) (e := .ref .StructMember)
      (fun a x s s' hg hl => ⟨structMember_ok H hg hl, structMember_least H W hg hl⟩) h4
      (by simpa using h5) hfirst
    obtain ⟨y, hy, hstar⟩ := items_gap (f := fun f : SMember ι => f.spell sp ++ [.gap, .tok ";"]) (out := fun m => memberVal (m.member mn))
      (hs := SMember.hoist mn) (e := .ref .StructMember) (fun a x s s' hg hl => structMember_ok H hg hl) h4
      (by simpa using h5) (fun y hy => structMember_no hy hend)
    refine (start (leastSeq_label hstar (least_star hleast) (leastSeq_skip (skips_gap hy hend.1) (leastSeq_here (least_label
      (least_opt hending)))))).mono ?_
    simp only [SStruct.work, Option.map_some, Option.getD_some]
    omega

end

theorem tree_least : ∀ k d s s', Layout (Tree.spell k d) s s' → Least (.ref .StructDecl) s (Tree.work k d)
  | 0 => fun d => nomatch d
  | k + 1 => fun d s s' h => structDecl_least (tree_inner k) (tree_least k) (d := d) h

/-! ### Declarations and files -/

theorem declaration_least {k : Nat} {d : Decl (Tree k)} {x s s1 : List Char} (hx : Gap x s) (h : Layout d.spell s s1) :
    Least (.ref .Declaration) x d.work := by
  cases d with
  | struct t semi =>
    have hst := decl_starts h
    simp only [Decl.spell, layout_append] at h
    obtain ⟨v1, h1, h2⟩ := h
    have hl := structDecl_least (tree_inner k) (tree_least k) h1
    obtain ⟨⟨t', rfl⟩, -⟩ := structDecl_ok (tree_inner k) h1
    refine rule_least (r := .Declaration) (show Least rDeclaration _ _ from least_action (least_seq (leastSeq_skip
      (skips_gap hx (hst.stops (fun c hc => (declStart_fresh c hc).1))) (leastSeq_here (least_label
        (least_later (constDecl_no (by simp [List.cons_prefix_cons])) (least_later (contextDecl_no (by simp [List.cons_prefix_cons]))
          (least_choice ?_))))))))
    exact rule_least (r := .StructDeclaration) (show Least rStructDeclaration _ _ from least_action (least_seq (leastSeq_here (least_label hl))))
  | _ => exact least_zero

theorem decls_least {k : Nat} {ds : List (Decl (Tree k))} : ∀ {s : List Char}, Layout (declsSpell ds) s [] →
    Items (fun d s s' => Ok (.ref .Declaration) s (declVal d) d.hoist s' ∧ Least (.ref .Declaration) s d.work) ds s [] := by
  induction ds with
  | nil => rintro s rfl; rfl
  | cons d ds ih =>
    intro s h
    simp only [declsSpell, layout_append] at h
    obtain ⟨s2, ⟨s1, h1, _, h2, rfl⟩, h3⟩ := h
    have h4 := (decls_items h3).1
    exact ⟨_, ⟨declaration_ok (.done s) h1 h2 h4, declaration_least (.done s) h1⟩, ih h3⟩

/-- The calls for a whole text are at least the work its declarations ask for. -/
theorem file_least {k : Nat} {ds : List (Decl (Tree k))} {s : List Char} (h : Writes ds s) :
    Least (rules .File) s ((ds.map Decl.work).sum) := by
  obtain ⟨s1, h1, h2⟩ := h
  have h3 := (decls_items h2).1
  have h4 := items_least (k := 0) (decls_least h2) least_zero
  exact (show Least rFile _ _ from least_action (least_seq (leastSeq_skip (skips_gap h1 h3.fresh.1) (leastSeq_here (least_label
    (least_star h4))))))

end Verif.Peg
