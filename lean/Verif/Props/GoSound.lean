import Verif.GoTypeSound
import Verif.Props.GenCompileNeeds
/-!
# Programs that obey the scope and type rules run without getting stuck (C77)

`compiles` (`Verif/GoType`) and the interpreter (`Verif/GoSem`) are separate definitions. `stuck` is the outcome of running a text that
is no Go program: a name without a declaration, an operation on a value of another type, a missing return. The statements are about
all programs of the subset, whether `gen` emits them or not.
-/
set_option linter.unusedVariables false
namespace Verif.Props
open Verif Verif.Ast Verif.Go Verif.Gen Verif.Wire Verif.Spec Verif.Inspect Verif.Refine Verif.Go.Sound

variable {p : Prog} {ext : Ext} {exts : List (String × List String)} {A : Nat}

/-- The outcome of a call is no failure to compile; if it returns, the receiver and the result are values of the declared types. -/
def WellTyped (P : Sig) (T : String) : CallOut → Prop
  | .done o r _ => HasTy P o (.ty (.ptr T)) ∧ HasTy P r .bytes
  | .stuck _ => False
  | .panic _ => True
  | .timeout => True

/-- **C77.** In a package that compiles, `Parse` called on any object of its type, with contexts of the declared types, does not get
stuck, and every field of the object afterwards has a value of its declared type. -/
theorem C77_method (h : compiles p exts = true) (hx : ExtObj ext exts) {T : String} {ps : List String}
    (hT : (p.sig exts).parse.lookup T = some ps) {o : Val} (ho : HasTy (p.sig exts) o (.ty (.ptr T))) {as : List Val}
    (has : List.Forall₂ (HasTy (p.sig exts)) as (ps.map XT.named)) (w hid : Bytes) (fuel : Nat) :
    WellTyped (p.sig exts) T (runParse ⟨p, ext, A⟩ fuel T o (.bytes w hid) as) := by
  have := runParse_ok (M := ⟨p, ext, A⟩) h hx fuel T ps o (.bytes w hid) as hT ho (.bytes w hid) has
  split at this
  · next h => rw [h]; exact this
  · exact this.elim
  · next h1 h2 =>
    cases hr : runParse ⟨p, ext, A⟩ fuel T o (.bytes w hid) as with
    | done a b c => exact absurd hr (h1 a b c)
    | stuck m => exact absurd hr (h2 m)
    | panic m => trivial
    | timeout => trivial

/-- The same for an object just made. -/
theorem C77_new (h : compiles p exts = true) (hx : ExtObj ext exts) {T : String} {ps : List String}
    (hT : (p.sig exts).parse.lookup T = some ps) {as : List Val} (has : List.Forall₂ (HasTy (p.sig exts)) as (ps.map XT.named))
    (w hid : Bytes) (fuel : Nat) : WellTyped (p.sig exts) T (parseNew p ext A fuel T as w hid) :=
  C77_method h hx hT (.of_obj (zeroFields_ty (M := ⟨p, ext, A⟩) T)) has w hid fuel

/-- The same for `ParseT`: it returns a pointer to a `T`. -/
theorem C77_ctor (h : compiles p exts = true) (hx : ExtObj ext exts) {T : String} {c : Ctor} (hc : p.ctors.find? (·.type = T) = some c)
    {as : List Val} (has : List.Forall₂ (HasTy (p.sig exts)) as (c.params.map fun q => .named q.2)) (w hid : Bytes) (fuel : Nat) :
    match parseCtor p ext A fuel T as w hid with
    | .done _ v _ => HasTy (p.sig exts) v (.ty (.ptr T))
    | .stuck _ => False
    | _ => True :=
  runCtor_ok (M := ⟨p, ext, A⟩) h hx fuel hc (.bytes w hid) has

/-- For emitted programs, without any other condition on the source than that its package compiles. -/
theorem C77_emitted {nm : String → String} {ord : IterOrder} {fs : List File} (hm : marshallers nm ord fs = .ok p) (h : compiles p exts = true)
    (hx : ExtObj ext exts) {s : Struct} (hs : s ∈ fs.flatMap (·.structs)) (he : s.extern = false) {as : List Val}
    (has : List.Forall₂ (HasTy (p.sig exts)) as (s.contexts.map fun c => .named (nm c))) (w hid : Bytes) (fuel : Nat) :
    WellTyped (p.sig exts) (nm s.name) (parseNew p ext A fuel (nm s.name) as w hid) := by
  obtain ⟨r, hr, hfl⟩ := Res.bind_eq_ok.1 hm
  obtain ⟨hE, _, _, _⟩ := fileList_spec hfl
  obtain ⟨d, hd, m, hmm, _, h2, _⟩ := hE s hs he
  obtain ⟨b, hb, h2⟩ := Res.bind_eq_ok.1 h2
  cases h2
  have hn : (p.methods.map (·.type)).Nodup := by
    simp only [compiles, Bool.and_eq_true, decide_eq_true_eq] at h
    exact h.1.1.1.1.2
  refine C77_new h hx (ps := s.contexts.map nm) ?_ (by simpa [Function.comp_def] using has) w hid fuel
  rw [parse_lookup]
  cases hf : p.methods.find? (·.type = nm s.name) with
  | none =>
    have := List.find?_eq_none.1 hf _ hmm
    simp at this
  | some m' =>
    have h1 : m'.type = nm s.name := by simpa using List.find?_some hf
    have h3 := List.inj_on_of_nodup_map hn (List.mem_of_find?_eq_some hf) hmm h1
    subst h3
    simp [contextSignature, Function.comp_def]

/-! ### Cases -/

theorem exUser_ctx {n : Int} (h0 : 0 ≤ n) (h1 : n < 2 ^ 8) :
    HasTy ((emitted exUser).sig [("Point", [])]) (.struct [(exNm "n", .num n)]) (.named (exNm "c")) := by
  have hl : ((emitted exUser).sig [("Point", [])]).types.lookup (exNm "c") = some [(exNm "n", .uint 8)] := by decide +kernel
  refine .of_struct fun f t h => ?_
  simp only [fieldTy, hl] at h
  split at h
  · cases h
  · obtain ⟨u, hu, rfl⟩ := Option.map_eq_some_iff.1 h
    rw [List.lookup_cons] at hu
    split at hu
    · next hf =>
      cases hu
      rw [beq_iff_eq.1 hf]
      exact ⟨.num n, by simp [getF], .num (t := .byte) ⟨h0, h1⟩⟩
    · cases hu

/-- The package of `exUser`, next to a user's type `Point`: an array of as many points as the context says, whatever the user's `Parse`
does with its receiver. -/
example (w : Bytes) (fuel : Nat) (hx : ExtObj ext [("Point", [])]) {n : Int} (h0 : 0 ≤ n) (h1 : n < 2 ^ 8) :
    WellTyped ((emitted exUser).sig [("Point", [])]) (exNm "seg")
      (parseNew (emitted exUser) ext A fuel (exNm "seg") [.struct [(exNm "n", .num n)]] w []) :=
  C77_emitted (s := structOf exUser "seg") exUser_compiles.1 exUser_compiles.2 hx (by decide +kernel) (by decide +kernel)
    (.cons (exUser_ctx h0 h1) .nil) w [] fuel

/-- A type with one field and a method with the given body. -/
def oneMethod (body : List Stmt) : Prog := ⟨[⟨"T", [("A", .uint 8), ("B", .slice .byte)]⟩], [⟨"T", "t", [], body⟩], []⟩

/-- Whether an outcome is `stuck`. -/
def stuckB : CallOut → Bool
  | .stuck _ => true
  | _ => false

/-- Bodies that get stuck: without return, with undeclared names, out of scope, operations on values of other types. -/
def stuckBodies : List (List Stmt) :=
  [[],
   [.ifS (.lt (.len (.var "data")) (.lit 0)) [.ret (.var "data")]],
   [.ret (.var "x")],
   [.assign (.var "x") (.lit 1), .ret (.var "data")],
   [.assign (.field "t" "C") (.lit 0), .ret (.var "data")],
   [.assign (.field "data" "A") (.lit 0), .ret (.var "data")],
   [.assign (.index "t" "A" "t") (.lit 0), .ret (.var "data")],
   [.ifS (.lit 1) [], .ret (.var "data")],
   [.forC (.lit 1) [], .ret (.var "data")],
   [.forIdx "i" (.var "data") [], .ret (.var "data")],
   [.switch [(some (.lit 1), [])], .ret (.var "data")],
   [.block [.define "x" (.lit 1), .assign (.var "x") (.lit 2)], .ret (.sliceFrom (.var "data") (.var "x"))],
   [.ret (.sliceFrom (.field (.var "t") "A") (.lit 0))],
   [.ret (.append (.field (.var "t") "A") (.lit 0))],
   [.callParse "data" "err" (.field "t" "A") (.var "data") [], .ret (.var "data")],
   [.callDefine "err" (.var "data") (.var "data") [], .ret (.var "data")],
   [.retErr "data"],
   [.ret .bad]]

/-- They are refused. -/
example : ∀ b ∈ stuckBodies, compiles (oneMethod b) [] = false ∧ stuckB (parseNew (oneMethod b) exExt 10 9 "T" [] [1, 2] []) = true := by
  decide +kernel

/-- A body that compiles though no source makes `gen` emit it: it slices, indexes and extends a slice it made, and calls itself. -/
def oddBody : List Stmt :=
  [.define "x" (.make .byte (.lit 3)), .assign (.field "t" "B") (.append (.sliceFrom (.var "x") (.lit 1)) (.index (.var "data") (.lit 0))),
   .assign (.var "x") (.sliceTo (.field (.var "t") "B") (.lit 2)), .define "i" (.lit 1), .assign (.index "t" "B" "i") (.field (.var "t") "A"),
   .ifS (.gt (.len (.var "data")) (.lit 1))
     [.varDecl "err" .error, .callParse "x" "err" (.var "t") (.sliceFrom (.var "data") (.lit 1)) [], .ifS (.notNil (.var "err")) [.retErr "err"]],
   .ret (.var "x")]

theorem oddBody_compiles : compiles (oneMethod oddBody) [] = true := by decide +kernel

/-- On the empty input it panics, on others it returns; it is never stuck. -/
example (w hid : Bytes) (fuel : Nat) : WellTyped ((oneMethod oddBody).sig []) "T" (parseNew (oneMethod oddBody) ext A fuel "T" [] w hid) :=
  C77_new oddBody_compiles (fun T ps h => by cases h) rfl .nil w hid fuel

example : parseNew (oneMethod oddBody) exExt 10 9 "T" [] [] [] = .panic "index out of range" := rfl

example : ∃ o, parseNew (oneMethod oddBody) exExt 10 9 "T" [] [5, 6] [] = .done o (.bytes [0, 0] [6]) none := ⟨_, rfl⟩

/-- Refused bodies need not get stuck: here a field of type `uint8` becomes 300. -/
example : compiles (oneMethod [.assign (.field "t" "A") (.lit 300), .ret (.var "data")]) [] = false ∧
    ∃ r, parseNew (oneMethod [.assign (.field "t" "A") (.lit 300), .ret (.var "data")]) exExt 10 9 "T" [] [] [] =
      .done (.obj "T" [("A", .num 300), ("B", .nil)]) r none := ⟨by decide +kernel, _, rfl⟩

end Verif.Props
