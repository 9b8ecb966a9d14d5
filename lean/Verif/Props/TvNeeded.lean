import Verif.Props.TvFormats
/-!
# The conditions of the check on tests are needed (C73)

Small sources, each outside one condition of the check of C72. All are accepted, and the code generated for them decides the format
whatever the input; but a test generated with the random source of the command (`rand.NewSource(0)`, gen/core.go:20,54) fails, or
vectors are not generated. Where a change of one member makes the difference, the changed source passes the check.
-/
namespace Verif.Props
open Verif Verif.Ast Verif.Go Verif.Go.Read Verif.Effects Verif.Golden Verif.Tv

set_option maxRecDepth 100000

/-! ## Specification -/

/-- The code decides the format, and yet fails a test generated with the seed of the command. -/
def TestFails (p : Prog) (ext : Ext) (nm : String → String) (fs : List File) : Prop :=
  Decides p ext nm fs ∧ FailingTest goEnv (seeded 0) p nm fs

/-- The code decides the format, passes all generated tests, and these cover what can be parsed. -/
def TestsWork (p : Prog) (ext : Ext) (nm : String → String) (fs : List File) : Prop :=
  Decides p ext nm fs ∧ Passing p ext nm fs ∧ Covering p ext nm fs

/-- Generation of vectors panics with the seed of the command. -/
def VectorsPanic (fs : List File) : Prop := ∃ fuel m, generateFiles goEnv fuel (seeded 0) fs = .panic m

/-- Check that it does. -/
def panicsB (N : Nat) (srcs : List (List UInt8)) (K : Nat) : Bool :=
  match parseAll N srcs with
  | some fs => match generateFiles goEnv K (seeded 0) fs with
    | .panic _ => true
    | _ => false
  | none => false

theorem vectorsPanic_of {N K : Nat} {srcs : List (List UInt8)} (h : panicsB N srcs K = true) :
    ∃ fs, ParsesAll srcs fs ∧ VectorsPanic fs := by
  simp only [panicsB] at h
  split at h
  · next fs hp =>
    refine ⟨fs, parseAll_parses hp, K, ?_⟩
    split at h
    · next m hm => exact ⟨m, hm⟩
    · cases h
  · cases h

/-! ## Constraints of an enclosing struct -/

/-- The number of elements is forgotten when a struct between the number and the array is entered (tv/generator.go:124,151: the vectors
of the inner struct have stores without local constraints, and these replace those of the outer one). -/
theorem C73_nested : Yields "p" camel []
    [Peg.utf8 (chars! "struct in { u8 x; }; struct s { u8 n; struct in y; u8 a[n]; };")] TestFails :=
  C72_failing (N := 400) (K := 12) (n := "s") (by decide +kernel)

/-- It is not if the struct comes after the array. -/
theorem C73_nested_after : Yields "p" camel []
    [Peg.utf8 (chars! "struct in { u8 x; }; struct s { u8 n; u8 a[n]; struct in y; };")] TestsWork :=
  C72_covering (N := 400) (B := 2 ^ 16) (by decide +kernel)

/-- An array of structs without members forgets its own number of elements: such a struct clears the store it was called with
(tv/generator.go:131, where `g.constraints` is still that of the caller). -/
theorem C73_empty : Yields "p" camel []
    [Peg.utf8 (chars! "struct e { }; struct s { u8 n; struct e x[n]; u8 a[n]; };")] TestFails :=
  C72_failing (N := 400) (K := 12) (n := "s") (by decide +kernel)

/-- It does not if the struct has a member. -/
theorem C73_empty_not : Yields "p" camel []
    [Peg.utf8 (chars! "struct e { u8 z; }; struct s { u8 n; struct e x[n]; u8 a[n]; };")] TestsWork :=
  C72_covering (N := 400) (B := 2 ^ 16) (by decide +kernel)

/-! ## Ranges of integers -/

/-- A number of elements is drawn without looking at the values allowed for the field (tv/generator.go:248). -/
theorem C73_count_range : Yields "p" camel [] [Peg.utf8 (chars! "struct s { u8 n IN [30]; u8 a[n]; };")] TestFails :=
  C72_failing (N := 400) (K := 12) (n := "s") (by decide +kernel)

/-- A tag is drawn for each case without looking at the values allowed for the field (tv/generator.go:294-296). -/
theorem C73_tag_range : Yields "p" camel []
    [Peg.utf8 (chars! "struct s { u8 t IN [1,2]; union u[t] { 1: u8 x; 2: u16 y; 3: u32 z; }; };")] TestFails :=
  C72_failing (N := 400) (K := 12) (n := "s") (by decide +kernel)

/-- A length that does not fit into its field is cut off (tv/generator.go:320-322,217). -/
theorem C73_length : Yields "p" camel []
    [Peg.utf8 (chars! "struct s { u8 t; u8 len; union u[t] with length len { 1: u8 x[260]; default: ; }; };")] TestFails :=
  C72_failing (N := 400) (K := 12) (n := "s") (by decide +kernel)

/-! ## What extends to the end of the input -/

/-- A struct that takes all of the input is followed by more bytes (tv/generator.go:149-153). -/
theorem C73_rest : Yields "p" camel []
    [Peg.utf8 (chars! "struct s { u8 a[]; }; struct t { struct s x; u8 y; };")] TestFails :=
  C72_failing (N := 400) (K := 12) (n := "t") (by decide +kernel)

/-- So is a case that ignores the rest. -/
theorem C73_ignore : Yields "p" camel []
    [Peg.utf8 (chars! "struct s { u8 t; union u[t] { 1: ...; default: ; }; u8 y; };")] TestFails :=
  C72_failing (N := 400) (K := 12) (n := "s") (by decide +kernel)

/-! ## No vectors -/

/-- Elements of an array that depend on a context may disagree about it (tv/generator.go:30-33). -/
theorem C73_disagree : ∃ fs, ParsesAll [Peg.utf8 (List.flatten [
    chars! "context c { u8 t; }; struct e with context c { union u[c.t] { 1: u8 x; 2: u16 y; }; };",
    chars! " struct s with context c { struct e a[2]; };"])] fs ∧ NoVectors goEnv (seeded 0) fs :=
  C72_no_vectors (N := 400) (K := 12) (by decide +kernel)

/-- A default case for which no values are left ends in a panic (tv/generator.go:296, internal/intervals/intervals.go:197). -/
theorem C73_no_value : ∃ fs, ParsesAll [Peg.utf8 (chars! "struct s { u8 t; union u[t] { 0..255: u8 x; default: ; }; };")] fs ∧
    VectorsPanic fs :=
  vectorsPanic_of (N := 400) (K := 12) (by decide +kernel)

end Verif.Props
