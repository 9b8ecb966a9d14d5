import Verif.RefineStruct
import Verif.Props.Inspect
/-!
# The emitted code computes the reference decoder: whole programs
-/
set_option linter.unusedSimpArgs false
set_option linter.unusedVariables false
namespace Verif.Refine
open Verif Verif.Ast Verif.Go Verif.Gen Verif.Wire Verif.Spec Verif.Inspect

variable {g : Cfg} {Γ : Fmt}

/-! ## What the generator emits -/

/-- The declarations emitted for struct `s` are part of the program. -/
def Emitted (g : Cfg) (p : Prog) (s : Struct) : Prop :=
  ∃ d ∈ p.types, ∃ m ∈ p.methods, structDecl g s = .ok d ∧ parse g (firstLetter s) s = .ok m ∧
    parseConstructor g (firstLetter s) s ∈ p.ctors

theorem receiver_eq {s : Struct} {r : String} (h : receiver s = .ok r) : r = firstLetter s := by
  unfold receiver at h
  unfold firstLetter
  cases hl : s.name.toList with
  | nil => rw [hl] at h; cases h
  | cons c cs => rw [hl] at h; cases h; rfl

theorem Emitted.left {p q : Prog} {s : Struct} (h : Emitted g p s) : Emitted g (append p q) s := by
  obtain ⟨d, hd, m, hm, h1, h2, h3⟩ := h
  exact ⟨d, List.mem_append_left _ hd, m, List.mem_append_left _ hm, h1, h2, List.mem_append_left _ h3⟩

theorem Emitted.right {p q : Prog} {s : Struct} (h : Emitted g q s) : Emitted g (append p q) s := by
  obtain ⟨d, hd, m, hm, h1, h2, h3⟩ := h
  exact ⟨d, List.mem_append_right _ hd, m, List.mem_append_right _ hm, h1, h2, List.mem_append_right _ h3⟩

theorem structure_spec {s : Struct} {p : Prog} (h : structure_ g s = .ok p) :
    (s.extern = false → Emitted g p s) ∧
    p.types.map (·.name) = ([s].filter (fun s => !s.extern)).map (fun s => g.nm s.name) ∧
    p.methods.map (·.type) = ([s].filter (fun s => !s.extern)).map (fun s => g.nm s.name) ∧
    p.ctors.map (·.type) = ([s].filter (fun s => !s.extern)).map (fun s => g.nm s.name) := by
  unfold structure_ at h
  cases he : s.extern with
  | true => rw [he] at h; cases h; simp [he]
  | false =>
    rw [he] at h
    simp only [Bool.false_eq_true, if_false] at h
    obtain ⟨r, hr, h⟩ := Res.bind_eq_ok.1 h
    obtain ⟨d, hd, h⟩ := Res.bind_eq_ok.1 h
    obtain ⟨m, hm, h⟩ := Res.bind_eq_ok.1 h
    cases h
    have := receiver_eq hr
    subst this
    have hdn : d.name = g.nm s.name := by
      obtain ⟨_, _, hd⟩ := Res.bind_eq_ok.1 hd; cases hd; rfl
    have hmn : m.type = g.nm s.name := by
      obtain ⟨_, _, hm⟩ := Res.bind_eq_ok.1 hm; cases hm; rfl
    refine ⟨fun _ => ⟨d, by simp, m, by simp, hd, hm, by simp⟩, ?_, ?_, ?_⟩
    · simp [he, hdn]
    · simp [he, hmn]
    · simp [he, parseConstructor]

theorem fileStructs_spec : ∀ {ss : List Struct} {p : Prog}, fileStructs g ss = .ok p →
    (∀ s ∈ ss, s.extern = false → Emitted g p s) ∧
    p.types.map (·.name) = (ss.filter (fun s => !s.extern)).map (fun s => g.nm s.name) ∧
    p.methods.map (·.type) = (ss.filter (fun s => !s.extern)).map (fun s => g.nm s.name) ∧
    p.ctors.map (·.type) = (ss.filter (fun s => !s.extern)).map (fun s => g.nm s.name) := by
  intro ss
  induction ss with
  | nil => intro p h; cases h; simp
  | cons s ss ih =>
    intro p h
    obtain ⟨p1, h1, h⟩ := Res.bind_eq_ok.1 h
    obtain ⟨p2, h2, h⟩ := Res.bind_eq_ok.1 h
    cases h
    obtain ⟨a1, a2, a3, a4⟩ := structure_spec h1
    obtain ⟨b1, b2, b3, b4⟩ := ih h2
    have hf : (s :: ss).filter (fun s => !s.extern) =
        [s].filter (fun s => !s.extern) ++ ss.filter (fun s => !s.extern) := by
      rw [← List.filter_append]; rfl
    refine ⟨?_, ?_, ?_, ?_⟩
    · intro s' hs' he
      rcases List.mem_cons.1 hs' with rfl | hs'
      · exact (a1 he).left
      · exact (b1 s' hs' he).right
    · rw [hf]; simp only [append, List.map_append, a2, b2]
    · rw [hf]; simp only [append, List.map_append, a3, b3]
    · rw [hf]; simp only [append, List.map_append, a4, b4]

theorem fileContexts_spec : ∀ {cs : List Context} {p : Prog}, fileContexts g cs = .ok p →
    p.types.map (·.name) = cs.map (fun c => g.nm c.name) ∧ p.methods = [] ∧ p.ctors = [] := by
  intro cs
  induction cs with
  | nil => intro p h; cases h; simp
  | cons c cs ih =>
    intro p h
    obtain ⟨d, h1, h⟩ := Res.bind_eq_ok.1 h
    obtain ⟨p2, h2, h⟩ := Res.bind_eq_ok.1 h
    cases h
    obtain ⟨b1, b2, b3⟩ := ih h2
    have hdn : d.name = g.nm c.name := by
      obtain ⟨_, _, hd⟩ := Res.bind_eq_ok.1 h1; cases hd; rfl
    simp [append, b1, b2, b3, hdn]

theorem fileList_spec : ∀ {fs : List File} {p : Prog}, fileList g fs = .ok p →
    (∀ s ∈ fs.flatMap (·.structs), s.extern = false → Emitted g p s) ∧
    p.types.map (·.name) = fs.flatMap (fun f => (typeNames f).map g.nm) ∧
    p.methods.map (·.type) =
      fs.flatMap (fun f => (f.structs.filter (fun s => !s.extern)).map (fun s => g.nm s.name)) ∧
    p.ctors.map (·.type) =
      fs.flatMap (fun f => (f.structs.filter (fun s => !s.extern)).map (fun s => g.nm s.name)) := by
  intro fs
  induction fs with
  | nil => intro p h; cases h; simp
  | cons f fs ih =>
    intro p h
    obtain ⟨p1, h1, h⟩ := Res.bind_eq_ok.1 h
    obtain ⟨p2, h2, h⟩ := Res.bind_eq_ok.1 h
    cases h
    obtain ⟨q1, hq1, h1⟩ := Res.bind_eq_ok.1 h1
    obtain ⟨q2, hq2, h1⟩ := Res.bind_eq_ok.1 h1
    cases h1
    obtain ⟨a1, a2, a3⟩ := fileContexts_spec hq1
    obtain ⟨b1, b2, b3, b4⟩ := fileStructs_spec hq2
    obtain ⟨c1, c2, c3, c4⟩ := ih h2
    refine ⟨?_, ?_, ?_, ?_⟩
    · intro s hs he
      rw [List.flatMap_cons, List.mem_append] at hs
      rcases hs with hs | hs
      · exact ((b1 s hs he).right).left
      · exact (c1 s hs he).right
    · simp [append, a1, b2, c2, typeNames, Function.comp_def]
    · simp [append, a2, b3, c3]
    · simp [append, a3, b4, c4]

theorem find_of_nodup {α : Type} (key : α → String) : ∀ {l : List α} {a : α}, (l.map key).Nodup → a ∈ l →
    l.find? (fun x => key x = key a) = some a := by
  intro l
  induction l with
  | nil => intro a _ h; cases h
  | cons b l ih =>
    intro a hnd h
    simp only [List.map_cons, List.nodup_cons] at hnd
    by_cases hk : key b = key a
    · rcases List.mem_cons.1 h with rfl | hm
      · simp
      · exact absurd (hk ▸ List.mem_map_of_mem hm) hnd.1
    · rcases List.mem_cons.1 h with rfl | hm
      · exact absurd rfl hk
      · rw [List.find?_cons]; simp only [hk, decide_false]; exact ih hnd.2 hm

/-! ## Zero values -/

theorem zero_tipeBase (b : Base) : zero (tipeBase g b) = zeroBase b := by
  cases b <;> rfl

theorem zero_tipe (hK : Γ.K = g.res.constant) {t : Ty} {G : GTy} (h : tipe g t = .ok G) : zero G = zeroTy Γ t := by
  cases t with
  | base b => cases h; exact zero_tipeBase b
  | ptr => cases h; rfl
  | nulterm => cases h; rfl
  | fixedArray b n =>
    obtain ⟨k, hk, h⟩ := Res.bind_eq_ok.1 h
    cases h
    simp [zero, zeroTy, integer_ok hK hk, zero_tipeBase]
  | varArray b c => cases h; rfl

/-- Zero values of declared fields. -/
abbrev zeros (ds : List (String × GTy)) : Fields := ds.map (fun (f, t) => (f, zero t))

/-- Zero values of source fields. -/
abbrev zfields (Γ : Fmt) (fs : List Field) : Fields := fs.map (fun f => (Γ.nm f.name, zeroTy Γ f.type))

theorem fieldDecl_zero (hK : Γ.K = g.res.constant) (hN : Γ.nm = g.nm) {f : Field} {d : String × GTy}
    (h : fieldDecl g f = .ok d) : (d.1, zero d.2) = (Γ.nm f.name, zeroTy Γ f.type) := by
  obtain ⟨t, ht, h⟩ := Res.bind_eq_ok.1 h
  cases h
  rw [zero_tipe hK ht, hN]

theorem leafDecls_zero (hK : Γ.K = g.res.constant) (hN : Γ.nm = g.nm) : ∀ {ls : List Leaf} {ds},
    leafDecls g ls = .ok ds → zeros ds = zfields Γ (leafFields ls) := by
  intro ls
  induction ls with
  | nil => intro ds h; cases h; rfl
  | cons l ls ih =>
    intro ds h
    cases l with
    | field f =>
      obtain ⟨d, hd, h⟩ := Res.bind_eq_ok.1 h
      obtain ⟨ds', hds, h⟩ := Res.bind_eq_ok.1 h
      cases h
      have := ih hds
      simp only [zeros, zfields] at this
      simp only [zeros, zfields, leafFields, List.map_cons, List.filterMap_cons]
      rw [this, fieldDecl_zero hK hN hd]
      rfl
    | eos => exact ih h
    | ignore => exact ih h
    | fail => exact ih h

theorem caseDecls_zero (hK : Γ.K = g.res.constant) (hN : Γ.nm = g.nm) : ∀ {cs : List UnionCase} {ds},
    caseDecls g cs = .ok ds → zeros ds = zfields Γ (cs.flatMap (fun c => leafFields c.members)) := by
  intro cs
  induction cs with
  | nil => intro ds h; cases h; rfl
  | cons c cs ih =>
    intro ds h
    obtain ⟨d, hd, h⟩ := Res.bind_eq_ok.1 h
    obtain ⟨ds', hds, h⟩ := Res.bind_eq_ok.1 h
    cases h
    have h1 := leafDecls_zero hK hN hd
    have h2 := ih hds
    simp only [zeros, zfields] at h1 h2 ⊢
    simp only [List.map_append, List.flatMap_cons, h1, h2]

theorem memberDecls_zero (hK : Γ.K = g.res.constant) (hN : Γ.nm = g.nm) : ∀ {ms : List Member} {ds},
    memberDecls g ms = .ok ds → zeros ds = zfields Γ (fieldsOf ms) := by
  intro ms
  induction ms with
  | nil => intro ds h; cases h; rfl
  | cons m ms ih =>
    intro ds h
    obtain ⟨d, hd, h⟩ := Res.bind_eq_ok.1 h
    obtain ⟨ds', hds, h⟩ := Res.bind_eq_ok.1 h
    cases h
    have h2 := ih hds
    have h1 : zeros d = zfields Γ (memberFields m) := by
      cases m with
      | leaf l =>
        cases l with
        | field f =>
          obtain ⟨d', hd', hd⟩ := Res.bind_eq_ok.1 hd
          cases hd
          have := fieldDecl_zero hK hN hd'
          simp only [zeros, zfields, memberFields, leafFields, List.map_cons, List.filterMap_cons]
          rw [this]; rfl
        | eos => cases hd; rfl
        | ignore => cases hd
        | fail => cases hd
      | union u => exact caseDecls_zero hK hN hd
    simp only [zeros, zfields, fieldsOf] at h1 h2 ⊢
    simp only [List.map_append, List.flatMap_cons, h1, h2]

/-! ## Programs -/

/-- A program emitted for a format. -/
structure ProgOK (g : Cfg) (Γ : Fmt) (p : Prog) : Prop where
  hK : Γ.K = g.res.constant
  hN : Γ.nm = g.nm
  hS : Γ.structs = g.res.struct
  name : ∀ n s, Γ.structs n = some s → s.name = n
  ok : ∀ n s, Γ.structs n = some s → s.extern = false → StructOK Γ s
  emitted : ∀ n s, Γ.structs n = some s → s.extern = false → Emitted g p s
  types : (p.types.map (·.name)).Nodup
  methods : (p.methods.map (·.type)).Nodup
  ctors : (p.ctors.map (·.type)).Nodup
  externT : ∀ n s, Γ.structs n = some s → s.extern = true → Γ.nm n ∉ p.types.map (·.name)
  externM : ∀ n s, Γ.structs n = some s → s.extern = true → Γ.nm n ∉ p.methods.map (·.type)

variable {p : Prog} {A : Nat} {ctx : Ctx}

theorem ProgOK.zeroFields (P : ProgOK g Γ p) {n : String} {s : Struct} (h : Γ.structs n = some s)
    (he : s.extern = false) : zeroFields p (Γ.nm n) = zeroObj Γ s := by
  obtain ⟨d, hd, m, hm, h1, h2, h3⟩ := P.emitted n s h he
  obtain ⟨fs, hfs, h1⟩ := Res.bind_eq_ok.1 h1
  cases h1
  have := find_of_nodup (·.name) P.types hd
  simp only [P.name n s h] at this
  unfold Go.zeroFields
  rw [P.hN, this]
  exact memberDecls_zero P.hK P.hN hfs

theorem ProgOK.method (P : ProgOK g Γ p) {n : String} {s : Struct} (h : Γ.structs n = some s)
    (he : s.extern = false) : ∃ m, parse g (firstLetter s) s = .ok m ∧
      p.methods.find? (·.type = Γ.nm n) = some m := by
  obtain ⟨d, hd, m, hm, h1, h2, h3⟩ := P.emitted n s h he
  refine ⟨m, h2, ?_⟩
  have hmn : m.type = Γ.nm n := by
    obtain ⟨_, _, hm⟩ := Res.bind_eq_ok.1 h2; cases hm; simp [P.hN, P.name n s h]
  rw [← hmn]
  exact find_of_nodup (·.type) P.methods hm

theorem find_none_of_notMem {α : Type} {key : α → String} {l : List α} {n : String} (h : n ∉ l.map key) :
    l.find? (fun a => key a = n) = none := by
  rw [List.find?_eq_none]
  intro a ha
  simp only [decide_eq_true_eq]
  rintro rfl
  exact h (List.mem_map_of_mem ha)

/-- Running a method once nested calls are known to agree. -/
theorem runParse_step (P : ProgOK g Γ p) (hctx : CtxOK Γ ctx) {fuel : Nat}
    (hcalls : CallsOK ⟨p, Γ.ext, A⟩ Γ ctx (runParse ⟨p, Γ.ext, A⟩ fuel) (decStruct Γ A ctx fuel))
    {n : String} {s : Struct} (h : Γ.structs n = some s) (he : s.extern = false) {o : Fields}
    (ho : Typed Γ s o) (w hid : Bytes) (hw : w.length < 2 ^ 63) :
    RunAgree (Γ.nm n) (decMembers Γ A (decStruct Γ A ctx fuel) fuel ctx w.length s.ms o w)
      (runParse ⟨p, Γ.ext, A⟩ (fuel + 1) (Γ.nm n) (.obj (Γ.nm n) o) (.bytes w hid)
        (s.contexts.map (fun c => .struct (ctx c)))) := by
  obtain ⟨m, hm, hfind⟩ := P.method h he
  unfold runParse
  simp only [hfind]
  exact method_exec (M := ⟨p, Γ.ext, A⟩) (call := runParse ⟨p, Γ.ext, A⟩ fuel) (L := fuel)
    (S := decStruct Γ A ctx fuel)
    (fun D hD => ⟨P.hK, P.hN, P.hS, decStruct_suffix fuel, P.ok n s h he, hctx, hcalls, hD⟩) hm ho w hid hw

theorem calls_agree (P : ProgOK g Γ p) (hctx : CtxOK Γ ctx) : ∀ fuel,
    CallsOK ⟨p, Γ.ext, A⟩ Γ ctx (runParse ⟨p, Γ.ext, A⟩ fuel) (decStruct Γ A ctx fuel) := by
  intro fuel
  induction fuel with
  | zero => intro n s h w hid hw; rfl
  | succ fuel ih =>
    intro n s h w hid hw
    cases he : s.extern with
    | true =>
      have h1 : p.methods.find? (·.type = Γ.nm n) = none := find_none_of_notMem (P.externM n s h he)
      simp only [decStruct, h, he, if_true]
      unfold runParse
      simp only [h1, asBytes]
      cases hx : Γ.ext (Γ.nm n) (s.contexts.map (fun c => .struct (ctx c))) w with
      | ok q => obtain ⟨v, k⟩ := q; exact ⟨hid, rfl⟩
      | error m => exact ⟨_, _, rfl⟩
    | false =>
      have hrun := runParse_step (A := A) P hctx ih h he (zeroObj_typed (P.ok n s h he)) w hid hw
      rw [← P.zeroFields h he] at hrun
      simp only [decStruct, h, he, Bool.false_eq_true, if_false]
      rw [← P.zeroFields h he]
      cases hd : decMembers Γ A (decStruct Γ A ctx fuel) fuel ctx w.length s.ms (zeroFields p (Γ.nm n)) w with
      | ok q => obtain ⟨o, r⟩ := q; rw [hd] at hrun; exact hrun
      | err m => rw [hd] at hrun; obtain ⟨o, ho⟩ := hrun; exact ⟨o, _, ho⟩
      | panic m => rw [hd] at hrun; exact hrun
      | timeout => rw [hd] at hrun; exact hrun

/-- Running the method of a struct on a well-typed object. -/
theorem runParse_agree (P : ProgOK g Γ p) (hctx : CtxOK Γ ctx) (fuel : Nat)
    {n : String} {s : Struct} (h : Γ.structs n = some s) (he : s.extern = false) {o : Fields}
    (ho : Typed Γ s o) (w hid : Bytes) (hw : w.length < 2 ^ 63) :
    RunAgree (Γ.nm n) (decMembers Γ A (decStruct Γ A ctx fuel) fuel ctx w.length s.ms o w)
      (runParse ⟨p, Γ.ext, A⟩ (fuel + 1) (Γ.nm n) (.obj (Γ.nm n) o) (.bytes w hid)
        (s.contexts.map (fun c => .struct (ctx c)))) :=
  runParse_step P hctx (calls_agree P hctx fuel) h he ho w hid hw

/-- What `ParseT` makes of the outcome of `Parse` on a new object. -/
def wrapped : CallOut → CallOut
  | .done o _ none => .done .nil o none
  | .done _ _ (some m) => .done .nil .nil (some m)
  | c => c

theorem ctor_eq (P : ProgOK g Γ p) (fuel : Nat) {n : String} {s : Struct} (h : Γ.structs n = some s)
    (he : s.extern = false) (ext : Ext) (d : Val) :
    runCtor ⟨p, ext, A⟩ fuel (Γ.nm n) d (s.contexts.map (fun c => .struct (ctx c))) =
      wrapped (runParse ⟨p, ext, A⟩ fuel (Γ.nm n) (.obj (Γ.nm n) (zeroFields p (Γ.nm n))) d
        (s.contexts.map (fun c => .struct (ctx c)))) := by
  obtain ⟨_, _, _, _, _, _, hc⟩ := P.emitted n s h he
  have hok := P.ok n s h he
  have hfind : p.ctors.find? (·.type = Γ.nm n) = some (parseConstructor g (firstLetter s) s) := by
    have := find_of_nodup (·.type) P.ctors hc
    simp only [parseConstructor, P.name n s h] at this ⊢
    rw [P.hN]; exact this
  have hnames := StructOK.namesOK hok
  have hr := hnames.recv
  simp only [List.mem_cons, List.not_mem_nil, or_false, not_or] at hr
  have hrc : firstLetter s ∉ s.contexts := fun hm => (hok.ctxs _ hm).2 rfl
  have hps : (parseConstructor g (firstLetter s) s).params.map (·.1) = s.contexts := by
    simp [parseConstructor, contextSignature, List.map_map, Function.comp_def]
  unfold runCtor
  simp only [hfind]
  rw [hps, bindParams_eq]
  simp only
  -- the environment after `recv := new(T)`
  have hnm : g.nm s.name = Γ.nm n := by rw [P.hN, P.name n s h]
  generalize henv0 : bindCtx ctx s.contexts (Env.empty.push "data" d) = env0
  have hdata : env0 "data" = [d] := by
    rw [← henv0, bindCtx_notMem _ (fun hm => hnames.ctxs _ hm (by simp)), push_same]; rfl
  have hrecv0 : env0 (firstLetter s) = [] := by
    rw [← henv0, bindCtx_notMem _ hrc, push_ne _ _ hr.2.1]; rfl
  have hctx0 : ∀ c ∈ s.contexts, ∃ t, env0 c = .struct (ctx c) :: t := by
    intro c hc; rw [← henv0]; exact bindCtx_mem ctx hc _
  simp only [parseConstructor, hnm]
  rw [execs_cons]
  have hdef : exec ⟨p, ext, A⟩ (runParse ⟨p, ext, A⟩ fuel) fuel (.define (firstLetter s) (.new (Γ.nm n))) env0 =
      .norm (env0.push (firstLetter s) (.obj (Γ.nm n) (zeroFields p (Γ.nm n)))) := by
    simp [exec, eval]
  rw [hdef, thenS_norm, execs_cons]
  generalize henv1 : env0.push (firstLetter s) (.obj (Γ.nm n) (zeroFields p (Γ.nm n))) = env1
  have h1r : env1 (firstLetter s) = [.obj (Γ.nm n) (zeroFields p (Γ.nm n))] := by
    rw [← henv1, push_same, hrecv0]
  have h1d : env1 "data" = [d] := by rw [← henv1, push_ne _ _ (Ne.symm hr.2.1), hdata]
  have hargs : evalArgs env1 s.contexts = .ok (s.contexts.map (fun c => .struct (ctx c))) := by
    apply evalArgs_ok
    intro c hc
    obtain ⟨t, ht⟩ := hctx0 c hc
    have hne : c ≠ firstLetter s := by rintro rfl; exact hrc hc
    exact ⟨t, by rw [← henv1, push_ne _ _ hne, ht]⟩
  have hcall : exec ⟨p, ext, A⟩ (runParse ⟨p, ext, A⟩ fuel) fuel
      (.callDefine "err" (.var (firstLetter s)) (.var "data") s.contexts) env1 =
      match runParse ⟨p, ext, A⟩ fuel (Γ.nm n) (.obj (Γ.nm n) (zeroFields p (Γ.nm n))) d
        (s.contexts.map (fun c => .struct (ctx c))) with
      | .done o' _ e => .norm ((env1.set (firstLetter s) o').push "err" (errVal e))
      | .panic m => .panic m
      | .stuck m => .stuck m
      | .timeout => .timeout := by
    simp only [exec, LV.expr, eval, h1r, h1d, thenE_ok, hargs]
    cases runParse ⟨p, ext, A⟩ fuel (Γ.nm n) (.obj (Γ.nm n) (zeroFields p (Γ.nm n))) d
        (s.contexts.map (fun c => .struct (ctx c))) <;> simp [store, h1r]
  rw [hcall]
  cases hrun : runParse ⟨p, ext, A⟩ fuel (Γ.nm n) (.obj (Γ.nm n) (zeroFields p (Γ.nm n))) d
        (s.contexts.map (fun c => .struct (ctx c))) with
  | panic m => rfl
  | stuck m => rfl
  | timeout => rfl
  | done o' r e =>
    simp only [thenS_norm]
    have herr : ((env1.set (firstLetter s) o').push "err" (errVal e)) "err" = errVal e :: (env1.set (firstLetter s) o') "err" :=
      push_same _ _ _
    have hrec : ((env1.set (firstLetter s) o').push "err" (errVal e)) (firstLetter s) = [o'] := by
      rw [push_ne _ _ hr.2.2.2.2.2, set_same, h1r]; rfl
    cases e with
    | none =>
      simp only [errVal] at herr hrec
      rw [execs_cons]
      simp [exec, eval, herr, errVal, execs_cons, hrec, wrapped]
    | some m =>
      simp only [errVal] at herr
      rw [execs_cons]
      simp [exec, eval, herr, errVal, execs_cons, wrapped, endBlock]

theorem nodup_flatMap_sub {α β : Type} {f f' : α → List β} : ∀ {l : List α},
    (∀ a ∈ l, (f' a).Sublist (f a)) → (l.flatMap f).Nodup → (l.flatMap f').Nodup := by
  intro l h hn
  refine hn.sublist ?_
  induction l with
  | nil => simp
  | cons a l ih =>
    simp only [List.flatMap_cons] at hn ⊢
    exact (h a List.mem_cons_self).append
      (ih (fun a' h' => h a' (List.mem_cons_of_mem _ h')) (List.nodup_append.1 hn).2.1)

theorem fileList_progOK {nm : String → String} {ext : Ext} {o : IterOrder} {fs : List File} {p : Prog} {r : Resolver}
    (hr : newResolverFiles o fs = .ok r) (h : fileList ⟨r, nm⟩ fs = .ok p) (hok : FilesOK nm ext fs) :
    ProgOK ⟨r, nm⟩ (fmtOf nm ext fs) p := by
  have hcomp : Props.FilesCompatible fs := by
    by_contra hc
    obtain ⟨m, hm⟩ := (Props.C11_multi_file o fs).2 hc
    rw [hm] at hr; cases hr
  obtain ⟨r', hr', h1, h2, h3⟩ := (Props.C11_multi_file o fs).1 hcomp
  rw [hr] at hr'
  cases hr'
  obtain ⟨a1, a2, a3, a4⟩ := fileList_spec h
  have hmem : ∀ n s, (fmtOf nm ext fs).structs n = some s → s ∈ fs.flatMap (·.structs) ∧ s.name = n :=
    fun n s hs => Props.lastNamed_mem (fun s : Struct => s.name) (fs.flatMap (fun f : File => f.structs)) n s hs
  have hsub : ∀ f ∈ fs, ((f.structs.filter (fun s => !s.extern)).map (fun s => nm s.name)).Sublist
      ((typeNames f).map nm) := by
    intro f _
    simp only [typeNames, List.map_append, List.map_map]
    exact List.sublist_append_right _ _
  have hmeth : (fs.flatMap (fun f => (f.structs.filter (fun s => !s.extern)).map (fun s => nm s.name))).Nodup :=
    nodup_flatMap_sub hsub hok.types
  refine ⟨?_, rfl, ?_, fun n s hs => (hmem n s hs).2, hok.structs, ?_, ?_, ?_, ?_, ?_, ?_⟩
  · funext n; exact (h3 n).symm
  · funext n; exact (h1 n).symm
  · intro n s hs he; exact a1 s (hmem n s hs).1 he
  · rw [a2]; exact hok.types
  · rw [a3]; exact hmeth
  · rw [a4]; exact hmeth
  · intro n s hs he; rw [a2]; exact hok.externs n s hs he
  · intro n s hs he
    rw [a3]
    intro hm
    apply hok.externs n s hs he
    simp only [List.mem_flatMap] at hm ⊢
    obtain ⟨f, hf, hm⟩ := hm
    exact ⟨f, hf, (hsub f hf).subset hm⟩

/-- The program emitted for well-formed files. -/
theorem marshallers_progOK {nm : String → String} {ext : Ext} {o : IterOrder} {fs : List File} {p : Prog}
    (h : marshallers nm o fs = .ok p) (hok : FilesOK nm ext fs) :
    ∃ r, ProgOK ⟨r, nm⟩ (fmtOf nm ext fs) p := by
  obtain ⟨r, hr, h⟩ := Res.bind_eq_ok.1 h
  exact ⟨r, fileList_progOK hr h hok⟩

end Verif.Refine
