import Verif.Props.GenTextCases
import Verif.Props.ParseSpec
/-!
# The tests of the source parser

The cases of parse/parse_test.go: the model of the parser gives the files expected there, and refuses what is to be refused.
-/
namespace Verif.Golden
open Verif Verif.Ast Verif.Props

set_option maxRecDepth 100000

/-- Check that a text gives a file. -/
def givesB (src : List Char) (f : File) : Bool :=
  match Peg.parseBytes 200 (Peg.utf8 src) with
  | some (.ok g) => decide (g = f)
  | _ => false

/-- A text gives a file (parse/parse_test.go:22). -/
def Gives (src : List Char) (f : File) : Prop := Parses (Peg.utf8 src) f

theorem gives_of {src : List Char} {f : File} (h : givesB src f = true) : Gives src f := by
  unfold givesB at h
  split at h
  · next g hp =>
    rw [decide_eq_true_eq] at h
    subst h
    exact parses_of_run hp
  · cases h

/-- A text gives some file, and another is refused (parse/parse_test.go:810-813). -/
def Splits (good bad : List Char) : Prop := (∃ f, Gives good f) ∧ Refuses (Peg.utf8 bad)

/-- The check of `Splits`. -/
def splitsB (good bad : List Char) : Bool :=
  match Peg.parseBytes 200 (Peg.utf8 good), Peg.parseBytes 200 (Peg.utf8 bad) with
  | some (.ok _), some (.err _) => true
  | _, _ => false

theorem splits_of {good bad : List Char} (h : splitsB good bad = true) : Splits good bad := by
  unfold splitsB at h
  split at h
  · next f e hg hb =>
    refine ⟨⟨f, parses_of_run hg⟩, 200, e, fun fuel hf => ?_⟩
    simp only [Peg.parseBytes, Peg.parseRunes] at hb ⊢
    rw [Peg.parseExpr_mono Peg.rules 200 fuel hf _ _ _ (by intro ht; rw [ht] at hb; cases hb)]
    exact hb
  · cases h

/-- parse/parse_test.go:12-27. -/
theorem parse_empty_blank : Gives (List.flatten [])
    ⟨[], [], [], []⟩ := gives_of (by decide +kernel)

/-- parse/parse_test.go:12-27. -/
theorem parse_empty_spaces : Gives ((chars! "    "))
    ⟨[], [], [], []⟩ := gives_of (by decide +kernel)

/-- parse/parse_test.go:12-27. -/
theorem parse_empty_tab : Gives ((chars! "\t"))
    ⟨[], [], [], []⟩ := gives_of (by decide +kernel)

/-- parse/parse_test.go:12-27. -/
theorem parse_empty_single_line_comment : Gives ((chars! "// nothing here"))
    ⟨[], [], [], []⟩ := gives_of (by decide +kernel)

/-- parse/parse_test.go:12-27. -/
theorem parse_empty_multi_line_comment : Gives ((chars! "   /* or here*/\t"))
    ⟨[], [], [], []⟩ := gives_of (by decide +kernel)

/-- parse/parse_test.go:29-56. -/
theorem parse_constant_decimal : Gives ((chars! "const CONST_ID = 123;"))
    ⟨[⟨"CONST_ID", 123⟩], [], [], []⟩ := gives_of (by decide +kernel)

/-- parse/parse_test.go:29-56. -/
theorem parse_constant_hex : Gives ((chars! "const CONST_ID = 0x7b;"))
    ⟨[⟨"CONST_ID", 123⟩], [], [], []⟩ := gives_of (by decide +kernel)

/-- parse/parse_test.go:29-56. -/
theorem parse_constant_octal : Gives ((chars! "const CONST_ID = 0173;"))
    ⟨[⟨"CONST_ID", 123⟩], [], [], []⟩ := gives_of (by decide +kernel)

/-- parse/parse_test.go:29-56. -/
theorem parse_constant_zero_decimal : Gives ((chars! "const CONST_ID = 0;"))
    ⟨[⟨"CONST_ID", 0⟩], [], [], []⟩ := gives_of (by decide +kernel)

/-- parse/parse_test.go:29-56. -/
theorem parse_constant_zero_hex : Gives ((chars! "const CONST_ID = 0x00;"))
    ⟨[⟨"CONST_ID", 0⟩], [], [], []⟩ := gives_of (by decide +kernel)

/-- parse/parse_test.go:58-75. -/
theorem parse_struct_basic : Gives ((chars! "struct rgb { u8 r; u8 g; u8 b; }"))
    ⟨[], [], [⟨"rgb", [], some [.leaf (.field ⟨"r", (.base (.int ⟨8, none⟩))⟩), .leaf (.field ⟨"g", (.base (.int ⟨8, none⟩))⟩), .leaf (.field ⟨"b", (.base (.int ⟨8, none⟩))⟩)]⟩], []⟩ := gives_of (by decide +kernel)

/-- parse/parse_test.go:77-87. -/
theorem parse_extern : Gives ((chars! "extern struct rgb;"))
    ⟨[], [], [⟨"rgb", [], none⟩], []⟩ := gives_of (by decide +kernel)

/-- parse/parse_test.go:89-102. -/
theorem parse_extern_contexts : Gives ((chars! "extern struct rgb with context a,b,c;"))
    ⟨[], [], [⟨"rgb", ["a", "b", "c"], none⟩], []⟩ := gives_of (by decide +kernel)

/-- parse/parse_test.go:104-122. -/
theorem parse_int_types : Gives ((chars! "struct s { u8 a; u16 b; u32 c; u64 d; }"))
    ⟨[], [], [⟨"s", [], some [.leaf (.field ⟨"a", (.base (.int ⟨8, none⟩))⟩), .leaf (.field ⟨"b", (.base (.int ⟨16, none⟩))⟩), .leaf (.field ⟨"c", (.base (.int ⟨32, none⟩))⟩), .leaf (.field ⟨"d", (.base (.int ⟨64, none⟩))⟩)]⟩], []⟩ := gives_of (by decide +kernel)

/-- parse/parse_test.go:124-200. -/
theorem parse_field : Gives (List.flatten [chars! "\n", chars! "\tstruct int_constraints {\n", chars! "\t\tu8 version_num IN [ 4, 5, 6 ];\n", chars! "\t\tu16 length IN [ 0..16384 ];\n", chars! "\t\tu16 length2 IN [ 0..MAX_LEN ];\n", chars! "\t\tu8 version_num2 IN [ 1, 2, 4..6, 9..128 ];\n", chars! "\t};\n", chars! "\t"])
    ⟨[], [], [⟨"int_constraints", [], some [.leaf (.field ⟨"version_num", (.base (.int ⟨8, (some ⟨[⟨(.literal 4), none⟩, ⟨(.literal 5), none⟩, ⟨(.literal 6), none⟩]⟩)⟩))⟩), .leaf (.field ⟨"length", (.base (.int ⟨16, (some ⟨[⟨(.literal 0), some (.literal 16384)⟩]⟩)⟩))⟩), .leaf (.field ⟨"length2", (.base (.int ⟨16, (some ⟨[⟨(.literal 0), some (.constRef "MAX_LEN")⟩]⟩)⟩))⟩), .leaf (.field ⟨"version_num2", (.base (.int ⟨8, (some ⟨[⟨(.literal 1), none⟩, ⟨(.literal 2), none⟩, ⟨(.literal 4), some (.literal 6)⟩, ⟨(.literal 9), some (.literal 128)⟩]⟩)⟩))⟩)]⟩], []⟩ := gives_of (by decide +kernel)

/-- parse/parse_test.go:202-223. -/
theorem parse_nul_term_string : Gives (List.flatten [chars! "struct nul_term_string {\n", chars! "\t\tnulterm str;\n", chars! "\t};\n", chars! "\t"])
    ⟨[], [], [⟨"nul_term_string", [], some [.leaf (.field ⟨"str", .nulterm⟩)]⟩], []⟩ := gives_of (by decide +kernel)

/-- parse/parse_test.go:225-262. -/
theorem parse_nested_structs : Gives (List.flatten [chars! "\n", chars! "\tstruct rgb { u8 r; u8 g; u8 b; };\n", chars! "\tstruct outer {\n", chars! "\t\tstruct rgb color;\n", chars! "\t\tstruct inner { u8 a; u64 b; } c;\n", chars! "\t};\n", chars! "\t"])
    ⟨[], [], [⟨"rgb", [], some [.leaf (.field ⟨"r", (.base (.int ⟨8, none⟩))⟩), .leaf (.field ⟨"g", (.base (.int ⟨8, none⟩))⟩), .leaf (.field ⟨"b", (.base (.int ⟨8, none⟩))⟩)]⟩, ⟨"outer", [], some [.leaf (.field ⟨"color", (.base (.struct "rgb"))⟩), .leaf (.field ⟨"c", (.base (.struct "inner"))⟩)]⟩, ⟨"inner", [], some [.leaf (.field ⟨"a", (.base (.int ⟨8, none⟩))⟩), .leaf (.field ⟨"b", (.base (.int ⟨64, none⟩))⟩)]⟩], []⟩ := gives_of (by decide +kernel)

/-- parse/parse_test.go:264-303. -/
theorem parse_fixed_array_simple : Gives (List.flatten [chars! "struct fixed_arrays {\n", chars! "\t\tu8 a[8];\n", chars! "\t\tu32 b[SIZE];\n", chars! "\t\tchar s[13];\n", chars! "\t}"])
    ⟨[], [], [⟨"fixed_arrays", [], some [.leaf (.field ⟨"a", (.fixedArray (.int ⟨8, none⟩) (.literal 8))⟩), .leaf (.field ⟨"b", (.fixedArray (.int ⟨32, none⟩) (.constRef "SIZE"))⟩), .leaf (.field ⟨"s", (.fixedArray .char (.literal 13))⟩)]⟩], []⟩ := gives_of (by decide +kernel)

/-- parse/parse_test.go:305-346. -/
theorem parse_fixed_array_structs : Gives (List.flatten [chars! "struct fixed_array_structs {\n", chars! "\t\tstruct another x[3];\n", chars! "\t\tstruct inner {\n", chars! "\t\t\tu8 a;\n", chars! "\t\t\tu32 b;\n", chars! "\t\t} y[7];\n", chars! "\t}"])
    ⟨[], [], [⟨"fixed_array_structs", [], some [.leaf (.field ⟨"x", (.fixedArray (.struct "another") (.literal 3))⟩), .leaf (.field ⟨"y", (.fixedArray (.struct "inner") (.literal 7))⟩)]⟩, ⟨"inner", [], some [.leaf (.field ⟨"a", (.base (.int ⟨8, none⟩))⟩), .leaf (.field ⟨"b", (.base (.int ⟨32, none⟩))⟩)]⟩], []⟩ := gives_of (by decide +kernel)

/-- parse/parse_test.go:348-373. -/
theorem parse_var_length_array : Gives (List.flatten [chars! "struct var_length_array {\n", chars! "\t\tu16 length;\n", chars! "\t\tu8 bytes[length];\n", chars! "\t}"])
    ⟨[], [], [⟨"var_length_array", [], some [.leaf (.field ⟨"length", (.base (.int ⟨16, none⟩))⟩), .leaf (.field ⟨"bytes", (.varArray (.int ⟨8, none⟩) (some (.idRef ⟨"", "length"⟩)))⟩)]⟩], []⟩ := gives_of (by decide +kernel)

/-- parse/parse_test.go:375-400. -/
theorem parse_remainder_array : Gives (List.flatten [chars! "struct remainder_array {\n", chars! "\t\tu8 x;\n", chars! "\t\tu8 rest[];\n", chars! "\t}"])
    ⟨[], [], [⟨"remainder_array", [], some [.leaf (.field ⟨"x", (.base (.int ⟨8, none⟩))⟩), .leaf (.field ⟨"rest", (.varArray (.int ⟨8, none⟩) none)⟩)]⟩], []⟩ := gives_of (by decide +kernel)

/-- parse/parse_test.go:402-423. -/
theorem parse_eos : Gives (List.flatten [chars! " struct fourbytes {\n", chars! "\t\tu16 x;\n", chars! "\t\tu16 y;\n", chars! "\t\teos;\n", chars! "\t}"])
    ⟨[], [], [⟨"fourbytes", [], some [.leaf (.field ⟨"x", (.base (.int ⟨16, none⟩))⟩), .leaf (.field ⟨"y", (.base (.int ⟨16, none⟩))⟩), .leaf (.eos)]⟩], []⟩ := gives_of (by decide +kernel)

/-- parse/parse_test.go:425-450. -/
theorem parse_var_length_string : Gives (List.flatten [chars! "struct pascal_string {\n", chars! "\t\tu8 hostname_len;\n", chars! "\t\tchar hostname[hostname_len];\n", chars! "\t}"])
    ⟨[], [], [⟨"pascal_string", [], some [.leaf (.field ⟨"hostname_len", (.base (.int ⟨8, none⟩))⟩), .leaf (.field ⟨"hostname", (.varArray .char (some (.idRef ⟨"", "hostname_len"⟩)))⟩)]⟩], []⟩ := gives_of (by decide +kernel)

/-- parse/parse_test.go:452-493. -/
theorem parse_leftover_length_array : Gives (List.flatten [chars! "struct encrypted {\n", chars! "\t\tu8 salt[16];\n", chars! "\t\tu8 message[..-32];\n", chars! "\t\tu8 mac[32];\n", chars! "\t}"])
    ⟨[], [], [⟨"encrypted", [], some [.leaf (.field ⟨"salt", (.fixedArray (.int ⟨8, none⟩) (.literal 16))⟩), .leaf (.field ⟨"message", (.varArray (.int ⟨8, none⟩) (some (.leftover (.literal 32))))⟩), .leaf (.field ⟨"mac", (.fixedArray (.int ⟨8, none⟩) (.literal 32))⟩)]⟩], []⟩ := gives_of (by decide +kernel)

/-- parse/parse_test.go:495-576. -/
theorem parse_union : Gives (List.flatten [chars! "struct has_union {\n", chars! "\t\tu8 tag;\n", chars! "\t\tunion addr[tag] {\n", chars! "\t\t\t4 : u32 ipv4_addr;\n", chars! "\t\t\t5 : ;\n", chars! "\t\t\t6 : u8 ipv6_addr[16];\n", chars! "\t\t\t0xf0,0xf1 : u8 hostname_len;\n", chars! "\t\t\t\t\tchar hostname[hostname_len];\n", chars! "\t\t\t0xF2 .. 0xFF : struct extension ext;\n", chars! "\t\t\tdefault : fail;\n", chars! "\t\t};\n", chars! "\t}"])
    ⟨[], [], [⟨"has_union", [], some [.leaf (.field ⟨"tag", (.base (.int ⟨8, none⟩))⟩), .union ⟨"addr", ⟨"", "tag"⟩, none, [⟨(some ⟨[⟨.literal 4, none⟩]⟩), [.field ⟨"ipv4_addr", (.base (.int ⟨32, none⟩))⟩]⟩, ⟨(some ⟨[⟨.literal 5, none⟩]⟩), []⟩, ⟨(some ⟨[⟨.literal 6, none⟩]⟩), [.field ⟨"ipv6_addr", (.fixedArray (.int ⟨8, none⟩) (.literal 16))⟩]⟩, ⟨(some ⟨[⟨.literal 240, none⟩, ⟨.literal 241, none⟩]⟩), [.field ⟨"hostname_len", (.base (.int ⟨8, none⟩))⟩, .field ⟨"hostname", (.varArray .char (some (.idRef ⟨"", "hostname_len"⟩)))⟩]⟩, ⟨(some ⟨[⟨.literal 242, some (.literal 255)⟩]⟩), [.field ⟨"ext", (.base (.struct "extension"))⟩]⟩, ⟨none, [.fail]⟩]⟩]⟩], []⟩ := gives_of (by decide +kernel)

/-- parse/parse_test.go:578-648. -/
theorem parse_union_extent_spec : Gives (List.flatten [chars! "struct union_extent {\n", chars! "\t\tu8 tag;\n", chars! "\t\tu16 length;\n", chars! "\t\tunion addr[tag] with length length {\n", chars! "\t\t   7 : ignore;\n", chars! "\t\t   0xEE : u32 ipv4_addr;\n", chars! "\t\t          ...;\n", chars! "\t\t   0xEF : u32 ipv4_addr;\n", chars! "\t\t          u8 remainder[];\n", chars! "\t\t   default: u8 unrecognized[];\n", chars! "\t\t};\n", chars! "\t};"])
    ⟨[], [], [⟨"union_extent", [], some [.leaf (.field ⟨"tag", (.base (.int ⟨8, none⟩))⟩), .leaf (.field ⟨"length", (.base (.int ⟨16, none⟩))⟩), .union ⟨"addr", ⟨"", "tag"⟩, (some (.idRef ⟨"", "length"⟩)), [⟨(some ⟨[⟨.literal 7, none⟩]⟩), [.ignore]⟩, ⟨(some ⟨[⟨.literal 238, none⟩]⟩), [.field ⟨"ipv4_addr", (.base (.int ⟨32, none⟩))⟩, .ignore]⟩, ⟨(some ⟨[⟨.literal 239, none⟩]⟩), [.field ⟨"ipv4_addr", (.base (.int ⟨32, none⟩))⟩, .field ⟨"remainder", (.varArray (.int ⟨8, none⟩) none)⟩]⟩, ⟨none, [.field ⟨"unrecognized", (.varArray (.int ⟨8, none⟩) none)⟩]⟩]⟩]⟩], []⟩ := gives_of (by decide +kernel)

/-- parse/parse_test.go:650-718. -/
theorem parse_union_members_after : Gives (List.flatten [chars! "struct encrypted {\n", chars! "\t   u8 type;\n", chars! "\t   union u[type] with length ..-32 {\n", chars! "\t      1: u8 bytes[];\n", chars! "\t  2: u8 salt[16];\n", chars! "\t     u8 other_bytes[];\n", chars! "\t   };\n", chars! "\t   u64 data[4];\n", chars! "\t}"])
    ⟨[], [], [⟨"encrypted", [], some [.leaf (.field ⟨"type", (.base (.int ⟨8, none⟩))⟩), .union ⟨"u", ⟨"", "type"⟩, (some (.leftover (.literal 32))), [⟨(some ⟨[⟨.literal 1, none⟩]⟩), [.field ⟨"bytes", (.varArray (.int ⟨8, none⟩) none)⟩]⟩, ⟨(some ⟨[⟨.literal 2, none⟩]⟩), [.field ⟨"salt", (.fixedArray (.int ⟨8, none⟩) (.literal 16))⟩, .field ⟨"other_bytes", (.varArray (.int ⟨8, none⟩) none)⟩]⟩]⟩, .leaf (.field ⟨"data", (.fixedArray (.int ⟨64, none⟩) (.literal 4))⟩)]⟩], []⟩ := gives_of (by decide +kernel)

/-- parse/parse_test.go:720-752. -/
theorem parse_pragma_single : Gives ((chars! "trunnel options ident1;"))
    ⟨[], [], [], [⟨"options", ["ident1"]⟩]⟩ := gives_of (by decide +kernel)

/-- parse/parse_test.go:720-752. -/
theorem parse_pragma_multi : Gives ((chars! "trunnel special ident1, ident2\t,    ident3   ,ident4   ;"))
    ⟨[], [], [], [⟨"special", ["ident1", "ident2", "ident3", "ident4"]⟩]⟩ := gives_of (by decide +kernel)

/-- parse/parse_test.go:754-780. -/
theorem parse_comments : Gives (List.flatten [chars! "struct /* comments can\n", chars! "\tbe anywhere */ rgb {\n", chars! "\t\tu8 r; /* this is a multi\n", chars! "\tline comment that /*should exclude this:\n", chars! "\t\tu8 a;\n", chars! "\t(hopefully) */\n", chars! "\t\tu8 // end of line comment\n", chars! "\t\t\tg; //}\n", chars! "\t\tu8 b;\n", chars! "\t}"])
    ⟨[], [], [⟨"rgb", [], some [.leaf (.field ⟨"r", (.base (.int ⟨8, none⟩))⟩), .leaf (.field ⟨"g", (.base (.int ⟨8, none⟩))⟩), .leaf (.field ⟨"b", (.base (.int ⟨8, none⟩))⟩)]⟩], []⟩ := gives_of (by decide +kernel)

/-- parse/parse_test.go:782-800. -/
theorem parse_context : Gives ((chars! "context ctx { u8 a; u16 b; u32 c; u64 d; }"))
    ⟨[], [⟨"ctx", [⟨"a", (.base (.int ⟨8, none⟩))⟩, ⟨"b", (.base (.int ⟨16, none⟩))⟩, ⟨"c", (.base (.int ⟨32, none⟩))⟩, ⟨"d", (.base (.int ⟨64, none⟩))⟩]⟩], [], []⟩ := gives_of (by decide +kernel)

/-- parse/parse_test.go:804-824. -/
theorem parse_context_fixed_array : Splits ((chars! "struct verify {u8 fixed_array[2];}")) ((chars! "context ctx {u8 fixed_array[2];}")) := splits_of (by decide +kernel)

/-- parse/parse_test.go:804-824. -/
theorem parse_context_var_array : Splits ((chars! "struct verify {u16 len; u8 var_array[len];}")) ((chars! "context ctx {u16 len; u8 var_array[len];}")) := splits_of (by decide +kernel)

/-- parse/parse_test.go:804-824. -/
theorem parse_context_eos : Splits ((chars! "struct verify {u8 a; eos;}")) ((chars! "context ctx {u8 a; eos;}")) := splits_of (by decide +kernel)

/-- parse/parse_test.go:804-824. -/
theorem parse_context_remaining : Splits ((chars! "struct verify {u32 a; u8 rest[];}")) ((chars! "context ctx {u32 a; u8 rest[];}")) := splits_of (by decide +kernel)

/-- parse/parse_test.go:804-824. -/
theorem parse_context_union : Splits (List.flatten [chars! "struct verify {u8 tag; union u[tag] {\n", chars! "\t\t\t1 : ignore;\n", chars! "\t\t\tdefault: fail;\n", chars! "\t\t};}"]) (List.flatten [chars! "context ctx {u8 tag; union u[tag] {\n", chars! "\t\t\t1 : ignore;\n", chars! "\t\t\tdefault: fail;\n", chars! "\t\t};}"]) := splits_of (by decide +kernel)

/-- parse/parse_test.go:804-824. -/
theorem parse_context_int_constraint : Splits ((chars! "struct verify {u8 x IN [ 42 ];}")) ((chars! "context ctx {u8 x IN [ 42 ];}")) := splits_of (by decide +kernel)

/-- parse/parse_test.go:826-853. -/
theorem parse_struct_with_context : Gives (List.flatten [chars! "struct encrypted_record with context stream_settings {\n", chars! "\t\tu8 iv[stream_settings.iv_len];\n", chars! "\t};"])
    ⟨[], [], [⟨"encrypted_record", ["stream_settings"], some [.leaf (.field ⟨"iv", (.varArray (.int ⟨8, none⟩) (some (.idRef ⟨"stream_settings", "iv_len"⟩)))⟩)]⟩], []⟩ := gives_of (by decide +kernel)

/-- parse/parse_test.go:855-873. -/
theorem parse_struct_with_multiple_contexts : Gives (List.flatten [chars! "struct multi with context ctx0,ctx1 , ctx2,      ctx3 {\n", chars! "\t\tu8 x;\n", chars! "\t};"])
    ⟨[], [], [⟨"multi", ["ctx0", "ctx1", "ctx2", "ctx3"], some [.leaf (.field ⟨"x", (.base (.int ⟨8, none⟩))⟩)]⟩], []⟩ := gives_of (by decide +kernel)

/-- parse/parse_test.go:875-901. -/
theorem parse_struct_ptr : Gives (List.flatten [chars! "struct haspos {\n", chars! "\t  nulterm s1;\n", chars! "\t  /** Position right after the first NUL. */\n", chars! "\t  @ptr pos1;\n", chars! "\t  nulterm s2;\n", chars! "\t  @ptr pos2;\n", chars! "\t  u32 x;\n", chars! "\t}"])
    ⟨[], [], [⟨"haspos", [], some [.leaf (.field ⟨"s1", .nulterm⟩), .leaf (.field ⟨"pos1", .ptr⟩), .leaf (.field ⟨"s2", .nulterm⟩), .leaf (.field ⟨"pos2", .ptr⟩), .leaf (.field ⟨"x", (.base (.int ⟨32, none⟩))⟩)]⟩], []⟩ := gives_of (by decide +kernel)

end Verif.Golden
