import Verif.Props.Inspect
import Verif.Props.GenTextCases
/-!
# The tests of the interval and inspect packages

The cases of internal/intervals/intervals_test.go, inspect/inspect_test.go, inspect/branches_test.go and ast/types_test.go. Left out are those on
the types of Go values that the model does not have (inspect_test.go:287-291, 346-369).
-/
namespace Verif.Golden
open Verif Verif.Ast Verif.Intervals Verif.Inspect Verif.Props

set_option maxRecDepth 100000

/-! ## internal/intervals/intervals_test.go -/

/-- Lines 14-40. -/
theorem intervals_make : range 10 20 = .ok ⟨10, 20⟩ ∧ (range 4 3).isPanic ∧ single 13 = .ok ⟨13, 13⟩ ∧
    (∀ n ∈ List.range 65, bits (64 - n) = .ok ⟨0, UInt64.ofNat (2 ^ (64 - n) - 1)⟩) ∧
    (⟨13, 13⟩ : Interval).size = 1 ∧ (⟨13, 17⟩ : Interval).size = 5 ∧
    (⟨13, 13⟩ : Interval).toString = "13" ∧ (⟨13, 17⟩ : Interval).toString = "13-17" := by decide +kernel

/-- Lines 42-60. -/
theorem intervals_contains : ∀ c ∈ ([(⟨42, 42⟩, 42, true), (⟨42, 42⟩, 100, false), (⟨100, 200⟩, 150, true), (⟨100, 200⟩, 100, true),
    (⟨100, 200⟩, 200, true), (⟨100, 200⟩, 99, false), (⟨100, 200⟩, 201, false)] : List (Interval × UInt64 × Bool)),
    c.1.contains c.2.1 = c.2.2 := by decide +kernel

/-- Lines 62-64. -/
theorem intervals_int_type : Intervals.intType 7 = newSet [⟨0, 127⟩] ∧ newSet [⟨0, 127⟩] = .ok ⟨[⟨0, 127⟩]⟩ := by decide +kernel

/-- Lines 66-84. -/
theorem intervals_overlaps : ∀ c ∈ ([([], false), ([⟨1, 1⟩], false), ([⟨10, 100⟩], false), ([⟨10, 100⟩, ⟨50, 60⟩], true),
    ([⟨5, 10⟩, ⟨10, 15⟩], true), ([⟨5, 10⟩, ⟨11, 15⟩], false)] : List (List Interval × Bool)), overlaps c.1 = .ok c.2 := by decide +kernel

/-- Lines 86-102. -/
theorem intervals_set_contains : ∀ c ∈ ([([], 10, false), ([⟨1, 1⟩], 1, true), ([⟨1, 1⟩, ⟨4, 5⟩], 4, true)] : List (List Interval × UInt64 × Bool)),
    (newSet c.1 >>= fun s => .ok (s.contains c.2.1)) = .ok c.2.2 := by decide +kernel

/-- Lines 104-125. -/
theorem intervals_set_string : ∀ c ∈ ([([], ""), ([⟨2, 2⟩, ⟨4, 5⟩], "2,4-5"), ([⟨2, 2⟩, ⟨4, 50⟩, ⟨30, 300⟩], "2,4-300")] : List (List Interval × String)),
    (newSet c.1 >>= fun s => .ok s.toString) = .ok c.2 := by decide +kernel

/-- Lines 127-172. -/
theorem intervals_subtract : ∀ c ∈ ([([⟨1, 10⟩], [⟨5, 15⟩], [⟨1, 4⟩]), ([⟨50, 100⟩], [⟨25, 75⟩], [⟨76, 100⟩]),
    ([⟨0, 4⟩, ⟨8, 12⟩], [⟨2, 10⟩], [⟨0, 1⟩, ⟨11, 12⟩]), ([⟨50, 100⟩], [⟨75, 75⟩], [⟨50, 74⟩, ⟨76, 100⟩]),
    ([⟨0, 255⟩], [⟨0, 15⟩], [⟨16, 255⟩]), ([⟨0, maxU64⟩], [⟨0, 0xffffffff⟩], [⟨0x100000000, maxU64⟩])] :
      List (List Interval × List Interval × List Interval)),
    (newSet c.1 >>= fun a => newSet c.2.1 >>= fun b => a.subtract b) = newSet c.2.2 ∧ newSet c.2.2 = .ok ⟨c.2.2⟩ := by decide +kernel

/-- Lines 174-198. -/
theorem intervals_complement : ∀ c ∈ ([([], []), ([⟨10, 20⟩], [⟨0, 9⟩, ⟨21, maxU64⟩]), ([⟨0, 42⟩], [⟨43, maxU64⟩]), ([⟨42, maxU64⟩], [⟨0, 41⟩])] :
      List (List Interval × List Interval)),
    complement c.1 = .ok c.2 := by decide +kernel

/-- Lines 223-225. -/
theorem intervals_random_empty : ∀ s ∈ ([0, 1, 7] : List Nat), ((Set.random counterSrc ⟨[]⟩ 100 s).map (·.1.isPanic)) = some true := by decide +kernel

/-! ## inspect/inspect_test.go -/

/-- A struct without members, as the tests write it. -/
def st (n : String) : Struct := ⟨n, [], none⟩

/-- A struct with one member `x`. -/
def stx (n : String) (size : Nat) : Struct := ⟨n, [], some [.leaf (.field ⟨"x", .base (.int ⟨size, none⟩)⟩)]⟩

/-- A file of structs. -/
def ofStructs (ss : List Struct) : File := ⟨[], [], ss, []⟩

/-- A file of constants. -/
def ofConstants (cs : List Constant) : File := ⟨cs, [], [], []⟩

/-- A file of contexts. -/
def ofContexts (cs : List Context) : File := ⟨[], cs, [], []⟩

/-- Lines 13-68. -/
theorem inspect_maps :
    structs (ofStructs [st "a", st "b", st "c"]) = .ok ⟨[("a", st "a"), ("b", st "b"), ("c", st "c")]⟩ ∧
    structs (ofStructs [st "a", st "b", st "a"]) = .err "duplicate struct name" ∧
    constants (ofConstants [⟨"a", 1⟩, ⟨"b", 2⟩, ⟨"c", 3⟩]) = .ok ⟨[("a", 1), ("b", 2), ("c", 3)]⟩ ∧
    constants (ofConstants [⟨"a", 0⟩, ⟨"b", 0⟩, ⟨"a", 0⟩]) = .err "duplicate constant name" := by decide +kernel

/-- Lines 70-95. -/
theorem inspect_new_errors : ∀ f ∈ [ofStructs [st "a", st "a"], ofContexts [⟨"a", []⟩, ⟨"a", []⟩], ofConstants [⟨"a", 0⟩, ⟨"a", 0⟩]],
    (newResolver idOrder f).isErr := by decide +kernel

/-- Lines 97-119: the file is added again with another constant. -/
theorem inspect_add_errors : ∀ f ∈ [ofStructs [stx "a" 8], ofContexts [⟨"a", []⟩], ofConstants [⟨"a", 0⟩]],
    ((newResolverEmpty.addFile idOrder 0 f).isOk ∧
      (newResolverEmpty.addFile idOrder 0 f >>= fun r => r.addFile idOrder 1 { f with constants := [⟨"a", 1⟩] }).isErr) := by decide +kernel

/-- Lines 121-148. -/
theorem inspect_override :
    (newResolverEmpty.addStruct (stx "a" 16) >>= fun r => r.addStruct (stx "a" 16)) = .err "cannot override non-extern struct" ∧
    (newResolverEmpty.addStruct (st "a") >>= fun r => r.addStruct (stx "a" 16)).isOk := by decide +kernel

/-- Lines 150-193. -/
theorem inspect_struct :
    (newResolver idOrder (ofStructs [st "a", st "b"]) >>= fun r => .ok (r.struct "b", r.struct "idk")) = .ok (some (st "b"), none) ∧
    (newResolver idOrder (ofStructs [stx "a" 16, st "b"]) >>= fun r => .ok (r.structNonExtern "a", r.structNonExtern "b", r.structNonExtern "c")) =
      .ok (.ok (stx "a" 16), .err "struct is external", .err "struct not found") := by decide +kernel

/-- Lines 195-225. -/
theorem inspect_context :
    (newResolverEmpty.addContext ⟨"a", []⟩ >>= fun r => r.addContext ⟨"a", []⟩) = .err "cannot override context" ∧
    (newResolverEmpty.addContext ⟨"a", []⟩ >>= fun r => .ok (r.context "a")) = .ok (some ⟨"a", []⟩) ∧
    (newResolver idOrder (ofContexts [⟨"a", []⟩, ⟨"b", []⟩]) >>= fun r => .ok (r.context "b", r.context "idk")) =
      .ok (some ⟨"b", []⟩, none) := by decide +kernel

/-- Lines 227-262. -/
theorem inspect_constant :
    (newResolverEmpty.addConstant ⟨"X", 42⟩ >>= fun r => .ok (r.constant "X")) = .ok (some 42) ∧
    (newResolverEmpty.setConstant "X" 42 >>= fun r => r.setConstant "X" 42 >>= fun r => .ok (r.constant "X")) = .ok (some 42) ∧
    (newResolverEmpty.setConstant "X" 42 >>= fun r => r.setConstant "X" 43).isErr := by decide +kernel

/-- Lines 264-302. -/
theorem inspect_integer : (newResolver idOrder (ofConstants [⟨"a", 1⟩, ⟨"b", 2⟩, ⟨"c", 3⟩]) >>= fun r =>
      .ok (r.integer (.constRef "b"), (r.integer (.constRef "no")).isErr, r.integer (.literal 42))) = .ok (.ok 2, true, .ok 42) := by
  decide +kernel

/-- Lines 304-380. -/
theorem inspect_intervals : (newResolver idOrder (ofStructs []) >>= fun r =>
      .ok (r.intervals ⟨[⟨.literal 4, some (.literal 5)⟩]⟩, r.intervals ⟨[⟨.literal 42, none⟩]⟩,
        r.intervals ⟨[⟨.literal 1, some (.literal 10)⟩, ⟨.literal 100, some (.literal 1000)⟩]⟩,
        (r.intervals ⟨[⟨.literal 1, some (.literal 10)⟩, ⟨.literal 5, some (.literal 14)⟩]⟩).isErr)) =
    .ok (.ok ⟨[⟨4, 5⟩]⟩, .ok ⟨[⟨42, 42⟩]⟩, .ok ⟨[⟨1, 10⟩, ⟨100, 1000⟩]⟩, true) := by decide +kernel

/-- The struct of lines 383-391. -/
def abcs : Struct := ⟨"name", [], some [.leaf (.field ⟨"a", .base (.int ⟨8, none⟩)⟩), .leaf (.field ⟨"b", .base (.int ⟨16, none⟩)⟩),
  .leaf (.field ⟨"c", .base (.int ⟨32, none⟩)⟩), .leaf (.field ⟨"s", .nulterm⟩)]⟩

/-- The context of lines 394-404. -/
def abcCtx : Context := ⟨"ctx", [⟨"a", .base (.int ⟨8, none⟩)⟩, ⟨"b", .base (.int ⟨16, none⟩)⟩, ⟨"c", .base (.int ⟨32, none⟩)⟩]⟩

/-- Lines 382-446. -/
theorem inspect_int_type : (newResolver idOrder ⟨[], [abcCtx], [abcs], []⟩ >>= fun r =>
      .ok (r.intType ⟨"", "b"⟩ abcs, r.intType ⟨"ctx", "c"⟩ abcs, (r.intType ⟨"what", "c"⟩ abcs).isErr, (r.intType ⟨"ctx", "missing"⟩ abcs).isErr,
        (r.intType ⟨"", "s"⟩ abcs).isErr)) = .ok (.ok ⟨16, none⟩, .ok ⟨32, none⟩, true, true, true) := by decide +kernel

/-! ## inspect/branches_test.go -/

/-- `BuildBranchesWithError` (lines 98-109), and the sets of the branches as text. -/
def branchSets (src : List Char) : Option (Res (List String)) :=
  match Peg.parseBytes 200 (Peg.utf8 src) with
  | some (.ok f) =>
    match newResolver idOrder f with
    | .ok r =>
      match r.struct "basic" with
      | some s =>
        match s.ms.findSome? (fun m => match m with | .union u => some u | _ => none) with
        | some u => some (newBranches r s u >>= fun bs => .ok (bs.map (·.set.toString)))
        | none => none
      | none => none
    | _ => none
  | _ => none

/-- Lines 14-27. -/
theorem branches_no_default : branchSets (List.flatten [chars! "struct basic {\n\t\tu8 tag;\n\t\tunion u[tag] {\n",
    chars! "\t\t\t1,100: u8 r; u8 g; u8 b;\n\t\t\t2..17, 42: u16 y; u8 m; u8 d;\n", chars! "\t\t};\n\t\tu16 right_after_the_union;\n\t};"]) =
    some (.ok ["1,100", "2-17,42"]) := by decide +kernel

/-- Lines 29-44. -/
theorem branches_default : branchSets (List.flatten [chars! "struct basic {\n\t\tu8 tag;\n\t\tunion u[tag] {\n",
    chars! "\t\t\t0..0xf: u32 a;\n            0xf4..0xff: u32 b;\n            default: u32 c;\n",
    chars! "\t\t};\n\t\tu16 right_after_the_union;\n\t};"]) = some (.ok ["0-15", "244-255", "16-243"]) := by decide +kernel

/-- Lines 46-55. -/
theorem branches_bad_tag : branchSets (List.flatten [chars! "struct basic {\n\t\tunion u[tagdoesnotexist] {\n",
    chars! "\t\t\t0..0xf: u32 a;\n            0xf4..0xff: u32 b;\n            default: u32 c;\n", chars! "\t\t};\n\t};"]) =
    some (.err "could not resolve reference") := by decide +kernel

/-- Lines 57-65. -/
theorem branches_bad_intervals : branchSets (List.flatten [chars! "struct basic {\n        u8 tag;\n\t\tunion u[tag] {\n",
    chars! "\t\t\t0..IDK: u32 a;\n\t\t};\n\t};"]) = some (.err "constant undefined") := by decide +kernel

/-- The branches of lines 68-71. -/
def twoBranches : List Branch := [⟨⟨[⟨30, 45⟩, ⟨100, 300⟩]⟩, ⟨none, []⟩⟩, ⟨⟨[⟨10, 20⟩, ⟨1001, 1001⟩]⟩, ⟨none, []⟩⟩]

/-- Lines 67-96. -/
theorem branches_lookup : ∀ c ∈ ([(40, some 0), (45, some 0), (200, some 0), (10, some 1), (15, some 1), (1001, some 1), (10000, none),
    (46, none)] : List (Int × Option Nat)), lookupBranch twoBranches c.1 = c.2.bind (fun i => twoBranches[i]?) := by decide +kernel

/-! ## ast/types_test.go -/

/-- Lines 9-13. -/
theorem ast_extern : (⟨"", [], none⟩ : Struct).extern = true ∧ (⟨"", [], some []⟩ : Struct).extern = false ∧
    (stx "" 8).extern = false := by decide +kernel

end Verif.Golden
