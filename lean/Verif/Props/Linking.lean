import Verif.Linking
import Verif.Props.Grow
import Verif.Props.Formats
/-!
# C84: extern structs may be defined by generated code

A generated parser is as good as user code that does what the struct's definition says.
-/
namespace Verif.Props
open Verif Verif.Ast Verif.Inspect Verif.Gen Verif.Go Verif.Wire Verif.Spec Verif.Refine Verif.Formats

theorem lastDecl_some {α : Type} {key : α → String} {l : List α} {a : α} (h : a ∈ l) : ∃ b, lastDecl key l (key a) = some b := by
  cases hb : lastDecl key l (key a) with
  | some b => exact ⟨b, rfl⟩
  | none => exact absurd rfl (lastNamed_lacks hb a h)

/-- Constants of the first files have their values in all files. -/
theorem fmtOf_K {nm : String → String} {ext ext' : Ext} {fs gs : List File} (hc : FilesCompatible (fs ++ gs)) {k : Integer}
    (hk : IntDeclared fs k) : ival (fmtOf nm ext fs).K k = ival (fmtOf nm ext' (fs ++ gs)).K k := by
  cases k with
  | literal x => rfl
  | constRef n =>
    obtain ⟨f, hf, c, hcf, rfl⟩ := hk
    have hmem : c ∈ fs.flatMap (·.constants) := List.mem_flatMap.2 ⟨f, hf, hcf⟩
    have sub : ∀ c ∈ fs.flatMap (·.constants), c ∈ (fs ++ gs).flatMap (·.constants) := fun c h => by
      rw [List.flatMap_append]
      exact List.mem_append_left _ h
    obtain ⟨a, ha⟩ := lastDecl_some (key := (·.name)) hmem
    obtain ⟨b, hb⟩ := lastDecl_some (key := (·.name)) (sub c hmem)
    show ((lastDecl (·.name) (fs.flatMap (·.constants)) c.name).map (·.value)) =
      ((lastDecl (·.name) ((fs ++ gs).flatMap (·.constants)) c.name).map (·.value))
    rw [ha, hb]
    obtain ⟨ma, na⟩ := lastDecl_mem ha
    obtain ⟨mb, nb⟩ := lastDecl_mem hb
    by_cases hab : a = b
    · rw [hab]
    · have : Std.Symm (fun a b : Constant => a.name = b.name → a.value = b.value) := ⟨fun x y h e => (h e.symm).symm⟩
      simp [hc.2.2.2.forall (sub a ma) mb hab (na.trans nb.symm)]

theorem fmtOf_embeds {nm : String → String} {ext ext' : Ext} {fs gs : List File} (hc : FilesCompatible (fs ++ gs)) (hr : Resolved fs) :
    Embeds (fmtOf nm ext fs) (fmtOf nm ext' (fs ++ gs)) := by
  have sub : ∀ s ∈ fs.flatMap (·.structs), s ∈ (fs ++ gs).flatMap (·.structs) := fun c h => by
    rw [List.flatMap_append]
    exact List.mem_append_left _ h
  have used : ∀ n s, (fmtOf nm ext fs).structs n = some s → s.extern = false → ∀ m ∈ s.ms,
      (∀ i ∈ memberInts m, IntDeclared fs i) ∧ ∀ n ∈ memberStructs m, StructDeclared fs n := by
    intro n s hs he m hm
    obtain ⟨f, hf, hsf⟩ := List.mem_flatMap.1 (lastDecl_mem hs).1
    exact (hr f hf).2 s hsf he m hm
  refine ⟨rfl, fun n s hs he => ?_, fun n s hs he m hm k hk => fmtOf_K hc ((used n s hs he m hm).1 k hk), fun n s hs he m hm n' hn' => ?_⟩
  · obtain ⟨ms, ns⟩ := lastDecl_mem hs
    obtain ⟨b, hb⟩ := lastDecl_some (key := (·.name)) (sub s ms)
    rw [show s.name = n from ns] at hb
    have := last_of_pairwise hc.2.1 hb s (sub s ms) ns (by
      intro h
      simp [Struct.extern, h] at he)
    rw [this]
    exact hb
  · obtain ⟨f, hf, s', hs', rfl⟩ := (used n s hs he m hm).2 n' hn'
    exact lastDecl_some (key := (·.name)) (List.mem_flatMap.2 ⟨f, hf, hs'⟩)

theorem fmtOf_ctx {nm : String → String} {ext ext' : Ext} {fs gs : List File} (hc : FilesCompatible (fs ++ gs)) {ctx : Ctx}
    (h : CtxOK (fmtOf nm ext' (fs ++ gs)) ctx) : CtxOK (fmtOf nm ext fs) ctx := by
  intro c C hC
  refine h c C ?_
  obtain ⟨m, hn⟩ := lastDecl_mem hC
  have m' : C ∈ (fs ++ gs).flatMap (·.contexts) := by
    rw [List.flatMap_append]
    exact List.mem_append_left _ m
  obtain ⟨b, hb⟩ := lastDecl_some (key := (·.name)) m'
  obtain ⟨mb, nb⟩ := lastDecl_mem hb
  have : b = C := List.inj_on_of_nodup_map hc.2.2.1 mb m' nb
  rw [this, show C.name = c from hn] at hb
  exact hb

/-- **C84.** If user code for the structs that `fs` leaves extern does what these are in all files, where `gs` may define some of them, the
structs defined in `fs` mean the same. -/
theorem C84_meaning {nm : String → String} {ext ext' : Ext} {fs gs : List File} (hc : FilesCompatible (fs ++ gs)) (hr : Resolved fs)
    {ctx : Ctx} (hi : Implements (fmtOf nm ext fs) (fmtOf nm ext' (fs ++ gs)) ctx) {n : String} {s : Struct}
    (hs : (fmtOf nm ext fs).structs n = some s) (v : Val) (i r : Bytes) :
    Enc (fmtOf nm ext fs) ctx n v i r ↔ Enc (fmtOf nm ext' (fs ++ gs)) ctx n v i r :=
  ⟨fun ⟨d, h⟩ => enc_link (fmtOf_embeds hc hr) hi d n v i r h, fun ⟨d, h⟩ => enc_unlink (fmtOf_embeds hc hr) hi d n s v i r hs h⟩

/-- **C84.** The parsers for the structs that `fs` defines accept the same inputs with the same values and rests and reject the same ones,
whether they call user code or code generated for `gs`. -/
theorem C84_parsers {nm : String → String} {pkg pkg' : String} {ext ext' : Ext} {o o' : IterOrder} {fs gs : List File} {p p' : Prog}
    (hm : marshallers nm o fs = .ok p) (hm' : marshallers nm o' (fs ++ gs) = .ok p')
    (hA : Accepted pkg nm ext fs) (hA' : Accepted pkg' nm ext' (fs ++ gs)) (hR : Returned nm ext fs) (hR' : Returned nm ext' (fs ++ gs))
    {ctx : Ctx} (hc : CtxOK (fmtOf nm ext' (fs ++ gs)) ctx) (hi : Implements (fmtOf nm ext fs) (fmtOf nm ext' (fs ++ gs)) ctx)
    {n : String} {s : Struct} (hs : (fmtOf nm ext fs).structs n = some s) (he : s.extern = false) (w hid hid' : Bytes) {A : Nat}
    (h1 : A < 2 ^ 63) (h2 : 2 ^ 32 ≤ A + 1) (h3 : w.length ≤ A) (h4 : ExtFits (fmtOf nm ext fs) A)
    (h4' : ExtFits (fmtOf nm ext' (fs ++ gs)) A) :
    (∀ v r, Accepts p ext A (nm n) (ctxArgs s ctx) w hid v r ↔ Accepts p' ext' A (nm n) (ctxArgs s ctx) w hid' v r) ∧
    ((∃ m, Rejects p ext A (nm n) (ctxArgs s ctx) w hid m) ↔ ∃ m, Rejects p' ext' A (nm n) (ctxArgs s ctx) w hid' m) := by
  have hs' := (fmtOf_embeds (nm := nm) (ext := ext) (ext' := ext') hA'.comp hA.res).structs n s hs he
  obtain ⟨d1, d2⟩ := decides_of hm hA hR ctx (fmtOf_ctx hA'.comp hc) n s hs w hid A h1 h2 h3 h4
  obtain ⟨d1', d2'⟩ := decides_of hm' hA' hR' ctx hc n s hs' w hid' A h1 h2 h3 h4'
  have key := C84_meaning hA'.comp hA.res hi hs
  refine ⟨fun v r => ((d1 v r).trans (key v w r)).trans (d1' v r).symm, d2.trans (Iff.trans ?_ d2'.symm)⟩
  exact forall_congr' fun v => forall_congr' fun r => not_congr (key v w r)

/-- **C84.** If further files declare none of the structs that `fs` leaves extern, user code need not be changed. -/
theorem C84_unrelated {nm : String → String} {ext : Ext} {fs gs : List File} (ctx : Ctx)
    (h : ∀ s ∈ fs.flatMap (·.structs), ∀ t ∈ gs.flatMap (·.structs), s.name ≠ t.name) :
    Implements (fmtOf nm ext fs) (fmtOf nm ext (fs ++ gs)) ctx := by
  intro n s hs he v i r
  have hs' : (fmtOf nm ext (fs ++ gs)).structs n = some s := by
    show lastNamed (·.name) ((fs ++ gs).flatMap (·.structs)) n = some s
    rw [List.flatMap_append, lastNamed_append]
    cases hg : lastNamed (·.name) (gs.flatMap (·.structs)) n with
    | none => exact hs
    | some t =>
      obtain ⟨mt, nt⟩ := lastNamed_found hg
      obtain ⟨ms, ns⟩ := lastDecl_mem hs
      exact absurd (ns.trans nt.symm) (h s ms t mt)
  constructor
  · intro hu
    refine ⟨1, s, hs', ?_⟩
    rw [if_pos he]
    exact hu
  · rintro ⟨d, hd⟩
    cases d with
    | zero => exact hd.elim
    | succ d =>
      obtain ⟨s', h1, h2⟩ := hd
      rw [hs'] at h1
      cases h1
      rwa [if_pos he] at h2

/-! ### A case -/

/-- A file that declares another struct. -/
example (ctx : Ctx) : Implements (fmtOf exNm exExt exUses) (fmtOf exNm exExt (exUses ++ exMsg)) ctx :=
  C84_unrelated ctx (by decide +kernel)

/-- `struct p { char z; }`. -/
def exChar : List File := [⟨[], [], [⟨"p", [], some [.leaf (.field ⟨"z", .base .char⟩)]⟩], []⟩]

/-- User code for `p`: one byte. -/
def exCharExt : Ext := fun T _ i =>
  match i with
  | b :: _ => if T = "P" then .ok (.obj "P" [("Z", .num b.toNat)], 1) else .error "unknown"
  | [] => .error "end of input"

theorem exChar_implements (ctx : Ctx) :
    Implements (fmtOf exNm exCharExt exUses) (fmtOf exNm exExt (exUses ++ exChar)) ctx := by
  intro n s hs he v i r
  obtain ⟨hm, hn⟩ := lastDecl_mem hs
  have hn : n = "p" ∧ s = ⟨"p", [], none⟩ := by
    simp only [exUses, List.flatMap_cons, List.flatMap_nil, List.append_nil, List.mem_cons, List.not_mem_nil, or_false] at hm
    rcases hm with rfl | rfl
    · exact ⟨hn.symm, rfl⟩
    · simp [Struct.extern] at he
  obtain ⟨rfl, rfl⟩ := hn
  have e : exNm "p" = "P" ∧ exNm "z" = "Z" := by decide +kernel
  have hs' : (fmtOf exNm exExt (exUses ++ exChar)).structs "p" = some ⟨"p", [], some [.leaf (.field ⟨"z", .base .char⟩)]⟩ := by
    decide +kernel
  constructor
  · rintro ⟨k, h1, h2⟩
    cases i with
    | nil => cases h1
    | cons b i =>
      have h1 : (if exNm "p" = "P" then Except.ok (Val.obj "P" [("Z", .num b.toNat)], 1) else .error "unknown") = Except.ok (v, k) := h1
      rw [if_pos e.1] at h1
      cases h1
      refine ⟨1, _, hs', ?_⟩
      rw [if_neg (by decide)]
      refine ⟨[("Z", .num b.toNat)], ?_, ?_, ?_⟩
      · show Val.obj "P" _ = Val.obj (exNm "p") _
        rw [e.1]
      · show ["Z"] = [exNm "z"]
        rw [e.2]
      · exact ⟨i, ⟨.num b.toNat, by show getF _ (exNm "z") = _; rw [e.2]; rfl, b, rfl, rfl⟩, h2.symm⟩
  · rintro ⟨d, h⟩
    cases d with
    | zero => exact h.elim
    | succ d =>
      obtain ⟨s', h1, h⟩ := h
      rw [hs'] at h1
      cases h1
      rw [if_neg (by decide)] at h
      obtain ⟨o, rfl, h2, k, ⟨v, h3, b, rfl, rfl⟩, rfl⟩ := h
      have h2 : o.map (·.1) = [exNm "z"] := h2
      have h3 : getF o (exNm "z") = some (.num b.toNat) := h3
      rw [e.2] at h2 h3
      obtain ⟨⟨x, y⟩, rfl, hx⟩ := List.map_eq_singleton_iff.1 h2
      cases hx
      simp only [getF, List.lookup_cons, beq_self_eq_true] at h3
      cases h3
      refine ⟨1, ?_, rfl⟩
      show (if exNm "p" = "P" then Except.ok (Val.obj "P" [("Z", .num b.toNat)], 1) else .error "unknown") =
        Except.ok (Val.obj (exNm "p") [("Z", .num b.toNat)], 1)
      rw [if_pos e.1, e.1]

/-- The parser for `q`, with user code for `p` and with generated code for `p`. -/
example (w hid hid' : Bytes) {A : Nat} (h1 : A < 2 ^ 63) (h2 : 2 ^ 32 ≤ A + 1) (h3 : w.length ≤ A) :
    (∀ v r, Accepts (emitted exUses) exCharExt A "Q" [] w hid v r ↔ Accepts (emitted (exUses ++ exChar)) exExt A "Q" [] w hid' v r) ∧
    ((∃ m, Rejects (emitted exUses) exCharExt A "Q" [] w hid m) ↔
      ∃ m, Rejects (emitted (exUses ++ exChar)) exExt A "Q" [] w hid' m) := by
  have e : exNm "q" = "Q" := by decide +kernel
  have key := C84_parsers (A := A) (n := "q") (s := structOf exUses "q") (ctx := fun _ => []) (gs := exChar)
    (marshallers_emitted (fs := exUses) (by decide +kernel)) (marshallers_emitted (fs := exUses ++ exChar) (by decide +kernel))
    (checkedB_sound (pkg := "p") (by decide +kernel) exCharExt) (checkedB_sound (pkg := "p") (by decide +kernel) exExt)
    (returnsB_sound (by decide +kernel) exCharExt) (returnsB_sound (by decide +kernel) exExt)
    (fun c C h => by
      have := (lastDecl_mem h).1
      simp [exUses, exChar] at this) (exChar_implements _) (by decide +kernel) (by decide +kernel) w hid hid' h1 h2 h3
    (fun n s hs he args w v k h => by
      cases w with
      | nil => cases h
      | cons b w =>
        simp only [fmtOf, exCharExt] at h
        split at h
        · cases h
          simp [Fits, FitsF]
        · cases h)
    (fun n s hs he => by
      have h : ∀ s ∈ (exUses ++ exChar).flatMap (·.structs), s.extern = false ∨ s.name = "p" := by decide +kernel
      rcases h s (lastDecl_mem hs).1 with h | h
      · rw [h] at he; cases he
      · have : n = "p" := (lastDecl_mem hs).2.symm.trans h
        subst this
        have e : (fmtOf exNm exExt (exUses ++ exChar)).structs "p" = some ⟨"p", [], some [.leaf (.field ⟨"z", .base .char⟩)]⟩ := by
          decide +kernel
        rw [e] at hs
        cases hs
        cases he)
  rw [e] at key
  exact key

end Verif.Props
