import Verif.RefineTypes
/-!
# The emitted code computes the reference decoder: members, unions, methods
-/
set_option linter.unusedSimpArgs false
set_option linter.unusedVariables false
namespace Verif.Refine
open Verif Verif.Ast Verif.Go Verif.Gen Verif.Wire Verif.Spec Verif.Inspect

variable {g : Cfg} {Γ : Fmt} {M : Mach} {call : Call} {L : Nat}
variable {recv T : String} {ctx : Ctx} {ctxs : List String} {D : Nat} {E : Fields → Bytes → Bytes → Env}

/-- The nested calls behave: for every declared struct, running its method agrees with `S`. -/
def CallsOK (M : Mach) (Γ : Fmt) (ctx : Ctx) (call : Call) (S : SDec) : Prop :=
  ∀ n s, Γ.structs n = some s → CallAgree M Γ ctx call S n s

variable {S : SDec} {s : Struct}

theorem BaseOK.good (hcalls : CallsOK M Γ ctx call S) {b : Base} (h : BaseOK Γ s b) :
    BaseGood M Γ ctx s.contexts call S b := by
  cases b with
  | int t => exact h
  | char => trivial
  | struct n =>
    obtain ⟨s', h1, h2⟩ := h
    intro s'' h3
    rw [h1] at h3
    cases h3
    exact ⟨hcalls _ _ h1, h2⟩

theorem shape_num {t : Ty} {v : Val} (ht : IntLike t) (h : Shape Γ t v) : ∃ x, v = .num x ∧ NumOK t x := by
  cases t with
  | base b =>
    cases b with
    | int t => exact h
    | char => exact h
    | struct n => exact absurd ht id
  | ptr => exact h
  | nulterm => exact absurd ht id
  | fixedArray b n => exact absurd ht id
  | varArray b c => exact absurd ht id

theorem RefOK.good (hctx : CtxOK Γ ctx) {o : Fields} (ho : Typed Γ s o) {r : IDRef} (h : RefOK Γ s r) :
    RefGood Γ ctx s.contexts o r := by
  unfold RefOK at h
  by_cases h0 : r.scope = ""
  · rw [if_pos h0] at h
    obtain ⟨f, hf, hn, hi⟩ := h
    obtain ⟨v, hv, hs⟩ := ho f hf
    obtain ⟨x, rfl, _⟩ := shape_num hi hs
    refine ⟨⟨x, ?_⟩, fun h => absurd h0 h⟩
    simp [refVal, h0, ← hn, hv]
  · rw [if_neg h0] at h
    obtain ⟨hs, C, hC, f, hf, hn, hi⟩ := h
    obtain ⟨x, hx, _⟩ := hctx _ C hC f hf hi
    refine ⟨⟨x, ?_⟩, fun _ => hs⟩
    simp [refVal, h0, ← hn, hx]

theorem LenOK.good (hctx : CtxOK Γ ctx) {o : Fields} (ho : Typed Γ s o) {c : LengthConstraint}
    (h : LenOK Γ s c) : LenGood Γ ctx s.contexts o c := by
  cases c with
  | leftover k => exact h
  | idRef r => exact RefOK.good hctx ho h

theorem TyOK.good (hs : StructOK Γ s) (hctx : CtxOK Γ ctx) (hcalls : CallsOK M Γ ctx call S) {o : Fields}
    (ho : Typed Γ s o) {f : Field} (hf : f ∈ fieldsOf s.ms) (h : TyOK Γ s f.type) :
    TyGood M Γ (firstLetter s) ctx s.contexts call S o (Γ.nm f.name) f.type := by
  obtain ⟨v, hv, hsh⟩ := ho f hf
  cases ht : f.type with
  | base b => rw [ht] at h; exact BaseOK.good hcalls h
  | ptr => trivial
  | nulterm => rw [ht] at h; exact h
  | fixedArray b n =>
    rw [ht] at h hsh
    obtain ⟨vs, rfl, hl⟩ := hsh
    obtain ⟨hb, x, hx, hx0, hx1⟩ := h
    refine ⟨BaseOK.good hcalls hb, vs, hv, hl, ?_⟩
    rw [hx] at hl
    simp only [Option.some.injEq] at hl
    omega
  | varArray b c =>
    rw [ht] at h
    cases c with
    | none => exact BaseOK.good hcalls h
    | some c =>
      obtain ⟨hb, hc⟩ := h
      cases c with
      | leftover k => exact ⟨BaseOK.good hcalls hb, hc⟩
      | idRef r =>
        refine ⟨BaseOK.good hcalls hb, RefOK.good hctx ho hc, fun h0 heq => ?_⟩
        simp only [LenOK, RefOK, if_pos h0] at hc
        obtain ⟨f', hf', hn, hi⟩ := hc
        rw [← hn] at heq
        have := field_inj hs hf' hf heq
        subst this
        rw [ht] at hi
        exact hi

theorem StructOK.namesOK (hs : StructOK Γ s) : NamesOK (firstLetter s) s.contexts where
  recv := fun h => hs.recv (by
    simp only [List.mem_cons, List.not_mem_nil, or_false] at h
    rcases h with h | h | h | h | h | h <;> rw [h] <;> decide)
  ctxs := fun c hc h => (hs.ctxs c hc).1 (by
    simp only [List.mem_cons, List.not_mem_nil, or_false] at h
    rcases h with h | h | h | h | h | h <;> rw [h] <;> decide)

/-- Everything the code of struct `s`'s method relies on. -/
structure Setting (g : Cfg) (Γ : Fmt) (M : Mach) (call : Call) (ctx : Ctx) (S : SDec) (s : Struct)
    (D : Nat) : Prop where
  hK : Γ.K = g.res.constant
  hN : Γ.nm = g.nm
  hS : Γ.structs = g.res.struct
  suf : S.Suffix
  ok : StructOK Γ s
  ctxOK : CtxOK Γ ctx
  calls : CallsOK M Γ ctx call S
  hD : D < 2 ^ 63

theorem exec_block (ss : List Stmt) (env : Env) :
    exec M call L (.block ss) env = execBlock M call L ss env := by
  simp only [exec, execBlock]

theorem parseLeaf_exec (X : Setting g Γ M call ctx S s D) (Fr : Frame (firstLetter s) T ctx s.contexts D E)
    {o : Fields} (ho : Typed Γ s o) {l : Leaf} (hl : LeafOK Γ s l)
    (hf : ∀ f ∈ leafFields [l], f ∈ fieldsOf s.ms) {st : Stmt}
    (hg : parseLeaf g (firstLetter s) l = .ok st) (w h : Bytes) (hw : w.length ≤ D) :
    Agree E (decLeaf Γ M.maxAlloc S L ctx D o w l) (exec M call L st (E o w h)) := by
  have hD := X.hD
  obtain ⟨tl, hcur⟩ := Fr.cur o w h
  cases l with
  | field f =>
    obtain ⟨ss, hss, hg⟩ := Res.bind_eq_ok.1 hg
    cases hg
    have hfm := hf f (by simp [leafFields])
    obtain ⟨v0, hv0, _⟩ := ho f hfm
    rw [← X.hN] at hss
    have := parseType_exec (L := L) X.hK X.hN X.hS X.suf Fr (StructOK.namesOK X.ok) X.hD hv0
      (TyOK.good X.ok X.ctxOK X.calls ho hfm hl) hss w h (by omega)
    rw [exec_block]
    simp only [decLeaf]
    have h2 := Agree.bind (E' := E) (f := fun p => DOut.ok (setF o (Γ.nm f.name) p.1, p.2)) (k := .norm) this
      (fun a r h _ => ⟨h, rfl⟩)
    have e : ∀ c, thenS c .norm = c := by intro c; cases c <;> rfl
    rw [e] at h2
    exact h2
  | eos =>
    cases hg
    rw [exec_block, execBlock_eq, execs_cons, exec_assertEnd hcur]
    simp only [decLeaf]
    by_cases hp : 0 < w.length
    · simp only [hp, if_true]; exact ⟨_, rfl⟩
    · simp only [hp, if_false]; go_step; exact ⟨h, by simp [declsOf, assertEnd, popAll]⟩
  | ignore =>
    cases hg
    rw [exec_block, execBlock_eq, execs_cons]
    have : exec M call L (.assign (.var "cur") .emptyBytes) (E o w h) = .norm (E o [] []) := by
      simp only [exec, eval, thenE_ok, store_cur hcur, Fr.setCur]
    rw [this]
    go_step
    exact ⟨[], by simp [declsOf, popAll]⟩
  | fail =>
    cases hg
    rw [exec_block, execBlock_eq, execs_cons]
    exact ⟨E o w h, by simp [exec]⟩

theorem parseLeaves_exec (X : Setting g Γ M call ctx S s D) (Fr : Frame (firstLetter s) T ctx s.contexts D E) :
    ∀ {ls : List Leaf} {ss : List Stmt} {o : Fields} {w h : Bytes}, Typed Γ s o →
    (∀ l ∈ ls, LeafOK Γ s l) → (∀ f ∈ leafFields ls, f ∈ fieldsOf s.ms) →
    parseLeaves g (firstLetter s) ls = .ok ss → w.length ≤ D →
    Agree E (decLeaves Γ M.maxAlloc S L ctx D ls o w) (execs M call L ss (E o w h)) ∧ declsOf ss = [] := by
  intro ls
  induction ls with
  | nil => intro ss o w h _ _ _ hg _; cases hg; exact ⟨⟨h, by rw [execs_nil]⟩, rfl⟩
  | cons l ls ih =>
    intro ss o w h ho hl hf hg hw
    obtain ⟨st, hst, hg⟩ := Res.bind_eq_ok.1 hg
    obtain ⟨ss', hss, hg⟩ := Res.bind_eq_ok.1 hg
    cases hg
    have hf1 : ∀ f ∈ leafFields [l], f ∈ fieldsOf s.ms := by
      intro f hf'; apply hf
      cases l <;> simp_all [leafFields]
    have hf2 : ∀ f ∈ leafFields ls, f ∈ fieldsOf s.ms := by
      intro f hf'; apply hf
      cases l <;> simp_all [leafFields]
    have hl2 := fun l' h' => hl l' (List.mem_cons_of_mem _ h')
    constructor
    · rw [execs_cons]
      refine Agree.bind (parseLeaf_exec X Fr ho (hl l List.mem_cons_self) hf1 hst w h hw) ?_
      intro o' r h' hd
      exact (ih (decLeaf_typed X.ok (hl l List.mem_cons_self) hf1 X.hD hw ho hd) hl2 hf2 hss
        (Nat.le_trans (decLeaf_suffix X.suf hd).length_le hw)).1
    · have hb : ∃ b, st = .block b := by
        cases l with
        | field f => obtain ⟨x, _, hx⟩ := Res.bind_eq_ok.1 hst; cases hx; exact ⟨_, rfl⟩
        | eos => cases hst; exact ⟨_, rfl⟩
        | ignore => cases hst; exact ⟨_, rfl⟩
        | fail => cases hst; exact ⟨_, rfl⟩
      obtain ⟨b, rfl⟩ := hb
      simp only [declsOf]
      exact (ih (h := h) ho hl2 hf2 hss hw).2

theorem parseCases_exec (X : Setting g Γ M call ctx S s D) (Fr : Frame (firstLetter s) T ctx s.contexts D E)
    {o : Fields} (ho : Typed Γ s o) {w h : Bytes} (hw : w.length ≤ D) {tag : Expr} {x : Int}
    (htag : eval M (E o w h) tag = .ok (.num x)) :
    ∀ {cs : List UnionCase} {cls : List (Option Expr × List Stmt)},
    (∀ c ∈ cs, (∀ l, c.case = some l → l.ranges ≠ []) ∧ (∀ l ∈ c.members, LeafOK Γ s l) ∧
      ∀ f ∈ leafFields c.members, f ∈ fieldsOf s.ms) →
    parseCases g (firstLetter s) tag cs = .ok cls →
    ∀ (dflt : Env → Ctl) (dd : DOut (Fields × Bytes)), Agree E dd (dflt (E o w h)) →
    Agree E (match cs.find? (caseHas Γ.K x) with
      | some c => decLeaves Γ M.maxAlloc S L ctx D c.members o w
      | none => match cs.reverse.find? (fun c => c.case.isNone) with
        | some c => decLeaves Γ M.maxAlloc S L ctx D c.members o w
        | none => dd) (execClauses M call L cls dflt (E o w h)) := by
  intro cs
  induction cs with
  | nil => intro cls _ hg dflt dd hd; cases hg; simpa [execClauses] using hd
  | cons c cs ih =>
    intro cls hcs hg dflt dd hd
    obtain ⟨hd1, hh, hg⟩ := Res.bind_eq_ok.1 hg
    obtain ⟨body, hbody, hg⟩ := Res.bind_eq_ok.1 hg
    obtain ⟨rest, hrest, hg⟩ := Res.bind_eq_ok.1 hg
    cases hg
    obtain ⟨hne, hlok, hlf⟩ := hcs c List.mem_cons_self
    have hcs' := fun c' h' => hcs c' (List.mem_cons_of_mem _ h')
    have hrun : Agree E (decLeaves Γ M.maxAlloc S L ctx D c.members o w)
        (execBlock M call L body (E o w h)) := by
      obtain ⟨h1, h2⟩ := parseLeaves_exec (L := L) (h := h) X Fr ho hlok hlf hbody hw
      rw [execBlock_eq, h2]
      exact Agree.map h1 (fun _ _ _ => rfl)
    unfold caseHead at hh
    cases hcase : c.case with
    | none =>
      rw [hcase] at hh
      cases hh
      have hcf : caseHas Γ.K x c = false := by simp [caseHas, hcase]
      simp only [execClauses, List.find?_cons, hcf, List.reverse_cons, List.find?_append, hcase,
        Option.isNone_none, List.find?_nil]
      have := ih hcs' hrest (fun env => endBlock body (execs M call L body env)) _ hrun
      cases hf1 : cs.find? (caseHas Γ.K x) with
      | some c' => rw [hf1] at this; exact this
      | none =>
        rw [hf1] at this
        cases hf2 : cs.reverse.find? (fun c => c.case.isNone) with
        | some c' => rw [hf2] at this; simpa using this
        | none => rw [hf2] at this; simpa using this
    | some l =>
      rw [hcase] at hh
      obtain ⟨e, he, hh⟩ := Res.bind_eq_ok.1 hh
      cases hh
      have hcond := conditional_eval (M := M) X.hK htag (hne l hcase) he
      have hch : caseHas Γ.K x c = listHas Γ.K l x := by simp [caseHas, hcase]
      simp only [execClauses, hcond, thenE_ok, List.find?_cons, hch, List.reverse_cons,
        List.find?_append, hcase, Option.isNone_some, List.find?_nil, Option.or_none]
      cases hb : listHas Γ.K l x with
      | true => exact hrun
      | false => exact ih hcs' hrest dflt dd hd

theorem parseSwitch_exec (X : Setting g Γ M call ctx S s D) (Fr : Frame (firstLetter s) T ctx s.contexts D E)
    {o : Fields} (ho : Typed Γ s o) {u : UnionMember} (hu : MemberOK Γ s (.union u))
    (hf : ∀ f ∈ memberFields (.union u), f ∈ fieldsOf s.ms) {ss : List Stmt}
    (hg : parseSwitch g (firstLetter s) u = .ok ss) :
    declsOf ss = [] ∧ ∀ w h, w.length ≤ D →
    Agree E (decCases Γ M.maxAlloc S L ctx D u o w) (execs M call L ss (E o w h)) := by
  obtain ⟨cls, hcls, hg⟩ := Res.bind_eq_ok.1 hg
  cases hg
  refine ⟨rfl, fun w h hw => ?_⟩
  obtain ⟨⟨x, hx⟩, hs⟩ := RefOK.good X.ctxOK ho hu.1
  have htag := ref_eval (M := M) (g := g) X.hN Fr hx hs w h
  have := parseCases_exec (L := L) X Fr ho hw htag
    (fun c hc => ⟨(hu.2.2 c hc).1, (hu.2.2 c hc).2, caseFields_sub hf hc⟩) hcls .norm (.ok (o, w)) ⟨h, rfl⟩
  rw [execs_cons]
  have hsw : exec M call L (.switch cls) (E o w h) = execClauses M call L cls .norm (E o w h) := by
    simp only [exec]
  rw [hsw]
  simp only [decCases, hx, selectCase]
  have e : ∀ c, thenS c (execs M call L []) = c := by
    intro c; cases c <;> simp [execs_nil]
  rw [e]
  cases h1 : u.cases.find? (caseHas Γ.K x) with
  | some c => rw [h1] at this; exact this
  | none =>
    rw [h1] at this
    simp only [Option.none_or]
    cases h2 : u.cases.reverse.find? (fun c => c.case.isNone) with
    | some c => rw [h2] at this; exact this
    | none => rw [h2] at this; exact this

theorem parseMember_exec (X : Setting g Γ M call ctx S s D) (Fr : Frame (firstLetter s) T ctx s.contexts D E)
    {o : Fields} (ho : Typed Γ s o) {m : Member} (hm : m ∈ s.ms) {st : Stmt}
    (hg : parseMember g (firstLetter s) m = .ok st) (w h : Bytes) (hw : w.length ≤ D) :
    Agree E (decMember Γ M.maxAlloc S L ctx D o w m) (exec M call L st (E o w h)) := by
  have hmo := X.ok.members m hm
  have hmf := fieldsOf_sub hm
  have hD := X.hD
  cases m with
  | leaf l => exact parseLeaf_exec X Fr ho hmo hmf hg w h hw
  | union u =>
    obtain ⟨ss, hss, hg⟩ := Res.bind_eq_ok.1 hg
    cases hg
    rw [exec_block]
    simp only [parseUnion] at hss
    simp only [decMember]
    cases hlen : u.length with
    | none =>
      rw [hlen] at hss
      obtain ⟨hd, hx⟩ := parseSwitch_exec (L := L) X Fr ho hmo hmf hss
      rw [execBlock_eq, hd]
      exact Agree.map (hx w h hw) (fun _ _ _ => rfl)
    | some c =>
      rw [hlen] at hss
      simp only at hss
      have hn := StructOK.namesOK X.ok
      -- the window is never longer than the input, so cut bodies at length `D`
      have hr := hn.recv
      simp only [List.mem_cons, List.not_mem_nil, or_false, not_or] at hr
      have FrR := fun u => Fr.push (x := "restore") (by decide) (Ne.symm hr.2.2.1) (by decide)
        (fun hmem => hn.ctxs _ hmem (by simp)) u
      refine constrained_exec (D := D) (Eo := E) X.hK X.hN Fr hn (LenOK.good X.ctxOK ho (hmo.2.1 c hlen)) hss
        (fun _ _ _ => Fr.cur _ _ _) (fun _ _ _ _ _ => Fr.setCur _ _ _ _ _) w h (by omega) ?_
      intro bd hbd
      exact ⟨(parseSwitch_exec (L := L) X Fr ho hmo hmf hbd).1,
        fun u w' h' hw' => (parseSwitch_exec (L := L) X (FrR u) ho hmo hmf hbd).2 w' h' (by omega)⟩

theorem parseMembers_exec (X : Setting g Γ M call ctx S s D) (Fr : Frame (firstLetter s) T ctx s.contexts D E) :
    ∀ {ms : List Member} {ss : List Stmt} {o : Fields} {w h : Bytes}, Typed Γ s o →
    (∀ m ∈ ms, m ∈ s.ms) → parseMembers g (firstLetter s) ms = .ok ss → w.length ≤ D →
    Agree E (decMembers Γ M.maxAlloc S L ctx D ms o w) (execs M call L ss (E o w h)) := by
  intro ms
  induction ms with
  | nil => intro ss o w h _ _ hg _; cases hg; exact ⟨h, by rw [execs_nil]⟩
  | cons m ms ih =>
    intro ss o w h ho hm hg hw
    obtain ⟨st, hst, hg⟩ := Res.bind_eq_ok.1 hg
    obtain ⟨ss', hss, hg⟩ := Res.bind_eq_ok.1 hg
    cases hg
    have hmm := hm m List.mem_cons_self
    rw [execs_cons]
    refine Agree.bind (parseMember_exec X Fr ho hmm hst w h hw) ?_
    intro o' r h' hd
    exact ih (decMember_typed X.ok X.suf X.hD (X.ok.members m hmm) (fieldsOf_sub hmm) hw ho hd)
      (fun m' h' => hm m' (List.mem_cons_of_mem _ h')) hss
      (Nat.le_trans (decMember_suffix X.suf hd).length_le hw)

/-! ## Methods -/

/-- Binding context parameters. -/
def bindCtx (ctx : Ctx) (cs : List String) (env : Env) : Env :=
  cs.foldl (fun e c => e.push c (.struct (ctx c))) env

theorem bindParams_eq (ctx : Ctx) (cs : List String) (env : Env) :
    bindParams env cs (cs.map (fun c => .struct (ctx c))) = some (bindCtx ctx cs env) := by
  induction cs generalizing env with
  | nil => rfl
  | cons c cs ih => simp only [List.map_cons, bindParams, bindCtx, List.foldl_cons]; exact ih _

theorem bindCtx_notMem (ctx : Ctx) {cs : List String} {x : String} (h : x ∉ cs) (env : Env) :
    bindCtx ctx cs env x = env x := by
  induction cs generalizing env with
  | nil => rfl
  | cons c cs ih =>
    simp only [List.mem_cons, not_or] at h
    simp only [bindCtx, List.foldl_cons]
    have := ih h.2 (env.push c (.struct (ctx c)))
    simp only [bindCtx] at this
    rw [this, push_ne _ _ h.1]

theorem bindCtx_mem (ctx : Ctx) {cs : List String} {c : String} (h : c ∈ cs) (env : Env) :
    ∃ t, bindCtx ctx cs env c = .struct (ctx c) :: t := by
  induction cs generalizing env with
  | nil => cases h
  | cons c' cs ih =>
    simp only [bindCtx, List.foldl_cons]
    by_cases hm : c ∈ cs
    · exact ih hm _
    · rcases List.mem_cons.1 h with rfl | h
      · have := bindCtx_notMem ctx hm (env.push c (.struct (ctx c)))
        simp only [bindCtx] at this
        exact ⟨_, by rw [this, push_same]⟩
      · exact absurd h hm

theorem bindCtx_congr (ctx : Ctx) {cs : List String} {x : String} {env env' : Env} (h : env x = env' x) :
    bindCtx ctx cs env x = bindCtx ctx cs env' x := by
  induction cs generalizing env env' with
  | nil => exact h
  | cons c cs ih =>
    simp only [bindCtx, List.foldl_cons]
    apply ih
    by_cases hx : x = c
    · subst hx; simp [h]
    · rw [push_ne _ _ hx, push_ne _ _ hx, h]

/-- The variables inside a method body. -/
def methodEnv (recv T : String) (ctx : Ctx) (cs : List String) (d dh : Bytes) (o : Fields) (w h : Bytes) : Env :=
  (bindCtx ctx cs ((Env.empty.push recv (.obj T o)).push "data" (.bytes d dh))).push "cur" (.bytes w h)

theorem methodEnv_recv {recv T : String} {ctx : Ctx} {cs : List String} (h1 : recv ≠ "cur") (h2 : recv ≠ "data")
    (h3 : recv ∉ cs) (d dh : Bytes) (o : Fields) (w h : Bytes) :
    methodEnv recv T ctx cs d dh o w h recv = [.obj T o] := by
  unfold methodEnv
  rw [push_ne _ _ h1, bindCtx_notMem _ h3, push_ne _ _ h2, push_same]
  rfl

theorem methodFrame {recv T : String} {ctx : Ctx} {cs : List String} (hn : NamesOK recv cs) (h3 : recv ∉ cs)
    (d dh : Bytes) : Frame recv T ctx cs d.length (methodEnv recv T ctx cs d dh) := by
  have hr := hn.recv
  simp only [List.mem_cons, List.not_mem_nil, or_false, not_or] at hr
  obtain ⟨h1, h2, _⟩ := hr
  refine ⟨?_, ?_, ?_, ?_, ?_, ?_⟩
  · intro o w h; exact ⟨_, push_same _ _ _⟩
  · intro o w h w' h'; exact set_push _ _ _ _
  · intro o w h; exact ⟨[], methodEnv_recv h1 h2 h3 d dh o w h⟩
  · intro o w h o'
    funext y
    by_cases hy : y = recv
    · subst hy
      rw [set_same, methodEnv_recv h1 h2 h3, methodEnv_recv h1 h2 h3]
      rfl
    · rw [set_ne _ _ hy]
      unfold methodEnv
      by_cases hc : y = "cur"
      · subst hc
        simp only [push_same]
        congr 1
        apply bindCtx_congr
        rw [push_ne _ _ (show ("cur" : String) ≠ "data" by decide),
          push_ne _ _ (show ("cur" : String) ≠ "data" by decide), push_ne _ _ hy, push_ne _ _ hy]
      · rw [push_ne _ _ hc, push_ne _ _ hc]
        apply bindCtx_congr
        by_cases hd : y = "data"
        · subst hd; simp only [push_same]; rw [push_ne _ _ hy, push_ne _ _ hy]
        · rw [push_ne _ _ hd, push_ne _ _ hd, push_ne _ _ hy, push_ne _ _ hy]
  · intro o w h
    refine ⟨d, dh, [], ?_, rfl⟩
    unfold methodEnv
    rw [push_ne _ _ (by decide), bindCtx_notMem _ (fun hm => hn.ctxs _ hm (by simp)), push_same,
      push_ne _ _ (Ne.symm h2)]
    rfl
  · intro o w h c hc
    unfold methodEnv
    rw [push_ne _ _ (by rintro rfl; exact hn.ctxs _ hc (by simp))]
    exact bindCtx_mem ctx hc _

/-- Outcome of a method call on an object against the outcome of decoding into its fields. -/
def RunAgree (T : String) (d : DOut (Fields × Bytes)) (c : CallOut) : Prop :=
  match d with
  | .ok (o, r) => ∃ h, c = .done (.obj T o) (.bytes r h) none
  | .err m => ∃ o, c = .done o .nil (some m)
  | .panic _ => ∃ m, c = .panic m
  | .timeout => c = .timeout

/-- Running the method emitted for `s` on any well-typed object. -/
theorem method_exec (X : ∀ D, D < 2 ^ 63 → Setting g Γ M call ctx S s D) {m : Method}
    (hg : parse g (firstLetter s) s = .ok m) {o : Fields} (ho : Typed Γ s o) (w h : Bytes)
    (hw : w.length < 2 ^ 63) :
    RunAgree T (decMembers Γ M.maxAlloc S L ctx w.length s.ms o w)
      (match bindParams ((Env.empty.push m.recv (.obj T o)).push "data" (.bytes w h)) (m.params.map (·.1))
          (s.contexts.map (fun c => .struct (ctx c))) with
      | none => .stuck "wrong number of arguments"
      | some env =>
        match execs M call L m.body env with
        | .ret env v e => .done ((env m.recv).getLastD .nil) v e
        | .norm _ => .stuck "missing return"
        | .panic m => .panic m
        | .stuck m => .stuck m
        | .timeout => .timeout) := by
  have X := X w.length hw
  obtain ⟨body, hbody, hg⟩ := Res.bind_eq_ok.1 hg
  cases hg
  have hps : (contextSignature g s.contexts).map (·.1) = s.contexts := by
    simp [contextSignature, List.map_map, Function.comp_def]
  rw [hps, bindParams_eq]
  simp only
  have hn := StructOK.namesOK X.ok
  have hrc : firstLetter s ∉ s.contexts := fun hm => (X.ok.ctxs _ hm).2 rfl
  have hr := hn.recv
  simp only [List.mem_cons, List.not_mem_nil, or_false, not_or] at hr
  have Fr := methodFrame (T := T) (ctx := ctx) hn hrc w h
  rw [List.append_assoc, List.cons_append, List.nil_append, execs_cons]
  have hdef : exec M call L (.define "cur" (.var "data"))
      (bindCtx ctx s.contexts ((Env.empty.push (firstLetter s) (.obj T o)).push "data" (.bytes w h))) =
      .norm (methodEnv (firstLetter s) T ctx s.contexts w h o w h) := by
    have : bindCtx ctx s.contexts ((Env.empty.push (firstLetter s) (.obj T o)).push "data" (.bytes w h)) "data" =
        [.bytes w h] := by
      rw [bindCtx_notMem _ (fun hm => hn.ctxs _ hm (by simp)), push_same, push_ne _ _ (Ne.symm hr.2.1)]
      rfl
    simp [exec, eval, this, methodEnv]
  rw [hdef, thenS_norm, execs_append]
  have hmain := parseMembers_exec (L := L) (h := h) X Fr (ss := body) (ms := s.ms) ho (fun _ h => h) hbody
    (Nat.le_refl w.length)
  cases hd : decMembers Γ M.maxAlloc S L ctx w.length s.ms o w with
  | ok p =>
    obtain ⟨o', r⟩ := p
    rw [hd] at hmain
    obtain ⟨h', hx⟩ := hmain
    rw [hx, thenS_norm, execs_cons]
    obtain ⟨tl, hcur⟩ := Fr.cur o' r h'
    have : exec M call L (.ret Gen.cur) (methodEnv (firstLetter s) T ctx s.contexts w h o' r h') =
        .ret (methodEnv (firstLetter s) T ctx s.contexts w h o' r h') (.bytes r h') none := by
      simp [exec, eval_cur hcur]
    rw [this, thenS_ret]
    refine ⟨h', ?_⟩
    simp only
    rw [methodEnv_recv hr.1 hr.2.1 hrc]
    rfl
  | err m =>
    rw [hd] at hmain
    obtain ⟨env, hx⟩ := hmain
    rw [hx, thenS_ret]
    exact ⟨_, rfl⟩
  | panic m =>
    rw [hd] at hmain
    obtain ⟨m', hx⟩ := hmain
    rw [hx, thenS_panic]
    exact ⟨m', rfl⟩
  | timeout =>
    rw [hd] at hmain
    have hx : _ = Ctl.timeout := hmain
    rw [hx, thenS_timeout]
    rfl

end Verif.Refine
