import Verif.Props.TvFormats
import Verif.Props.GoldenCases
import Verif.Props.FormatTor
/-!
# The formats of the repository pass the check: gen/tests and examples

All trunnel files of /repo, grouped as /repo/testdata/*/deps.yml says. The check is evaluated in the kernel; `C69_decides` then makes
a statement about all inputs, and `C72_covering` about all vectors and tests generated. The files the repository's tests expect to be
refused are refused.
-/
namespace Verif.Props
open Verif Verif.Ast Verif.Go Verif.Go.Read Verif.Effects Verif.Golden Verif.Tv

set_option maxRecDepth 100000

theorem tests_color_tested : Yields "color" camel [] [Peg.utf8 colorGolden.source] fun p ext nm fs => Decides p ext nm fs ∧ Passing p ext nm fs ∧ Covering p ext nm fs :=
  C72_covering (N := 400) (B := 2 ^ 16) (by decide +kernel)

theorem tests_color_works : Yields "color" camel [] [Peg.utf8 colorGolden.source] Decides := tests_color_tested.mono fun h => h.1

theorem tests_constant_tested : Yields "constant" camel [] [Peg.utf8 constantGolden.source] fun p ext nm fs => Decides p ext nm fs ∧ Passing p ext nm fs ∧ Covering p ext nm fs :=
  C72_covering (N := 400) (B := 2 ^ 16) (by decide +kernel)

theorem tests_constant_works : Yields "constant" camel [] [Peg.utf8 constantGolden.source] Decides := tests_constant_tested.mono fun h => h.1

theorem tests_constraint_tested : Yields "constraint" camel [] [Peg.utf8 constraintGolden.source] fun p ext nm fs => Decides p ext nm fs ∧ Passing p ext nm fs ∧ Covering p ext nm fs :=
  C72_covering (N := 400) (B := 2 ^ 16) (by decide +kernel)

theorem tests_constraint_works : Yields "constraint" camel [] [Peg.utf8 constraintGolden.source] Decides := tests_constraint_tested.mono fun h => h.1

theorem tests_contexts_tested : Yields "contexts" camel [] [Peg.utf8 contextsGolden.source] fun p ext nm fs => Decides p ext nm fs ∧ Passing p ext nm fs :=
  C72_passing (N := 400) (B := 256) (by decide +kernel)

theorem tests_contexts_works : Yields "contexts" camel [] [Peg.utf8 contextsGolden.source] Decides := tests_contexts_tested.mono fun h => h.1

theorem tests_eos_tested : Yields "eos" camel [] [Peg.utf8 eosGolden.source] fun p ext nm fs => Decides p ext nm fs ∧ Passing p ext nm fs ∧ Covering p ext nm fs :=
  C72_covering (N := 400) (B := 2 ^ 16) (by decide +kernel)

theorem tests_eos_works : Yields "eos" camel [] [Peg.utf8 eosGolden.source] Decides := tests_eos_tested.mono fun h => h.1

theorem tests_fixie_tested : Yields "fixie" camel [] [Peg.utf8 fixieGolden.source] fun p ext nm fs => Decides p ext nm fs ∧ Passing p ext nm fs ∧ Covering p ext nm fs :=
  C72_covering (N := 400) (B := 2 ^ 16) (by decide +kernel)

theorem tests_fixie_works : Yields "fixie" camel [] [Peg.utf8 fixieGolden.source] Decides := tests_fixie_tested.mono fun h => h.1

theorem tests_ints_tested : Yields "ints" camel [] [Peg.utf8 intsGolden.source] fun p ext nm fs => Decides p ext nm fs ∧ Passing p ext nm fs ∧ Covering p ext nm fs :=
  C72_covering (N := 400) (B := 2 ^ 16) (by decide +kernel)

theorem tests_ints_works : Yields "ints" camel [] [Peg.utf8 intsGolden.source] Decides := tests_ints_tested.mono fun h => h.1

theorem tests_leftover_works : Yields "leftover" camel [] [Peg.utf8 leftoverGolden.source] Decides :=
  C69_decides (N := 400) (by decide +kernel)

theorem tests_leftover_no_vectors : ∃ fs, ParsesAll [Peg.utf8 leftoverGolden.source] fs ∧ NoVectors goEnv (seeded 0) fs :=
  C72_no_vectors (N := 400) (K := 30) (by decide +kernel)

theorem tests_nest_tested : Yields "nest" camel [] [Peg.utf8 nestGolden.source] fun p ext nm fs => Decides p ext nm fs ∧ Passing p ext nm fs ∧ Covering p ext nm fs :=
  C72_covering (N := 400) (B := 2 ^ 16) (by decide +kernel)

theorem tests_nest_works : Yields "nest" camel [] [Peg.utf8 nestGolden.source] Decides := tests_nest_tested.mono fun h => h.1

theorem tests_nulterm_tested : Yields "nulterm" camel [] [Peg.utf8 nultermGolden.source] fun p ext nm fs => Decides p ext nm fs ∧ Passing p ext nm fs ∧ Covering p ext nm fs :=
  C72_covering (N := 400) (B := 2 ^ 16) (by decide +kernel)

theorem tests_nulterm_works : Yields "nulterm" camel [] [Peg.utf8 nultermGolden.source] Decides := tests_nulterm_tested.mono fun h => h.1

theorem tests_pos_tested : Yields "pos" camel [] [Peg.utf8 posGolden.source] fun p ext nm fs => Decides p ext nm fs ∧ Passing p ext nm fs ∧ Covering p ext nm fs :=
  C72_covering (N := 400) (B := 2 ^ 16) (by decide +kernel)

theorem tests_pos_works : Yields "pos" camel [] [Peg.utf8 posGolden.source] Decides := tests_pos_tested.mono fun h => h.1

theorem tests_rem_tested : Yields "rem" camel [] [Peg.utf8 remGolden.source] fun p ext nm fs => Decides p ext nm fs ∧ Passing p ext nm fs ∧ Covering p ext nm fs :=
  C72_covering (N := 400) (B := 2 ^ 16) (by decide +kernel)

theorem tests_rem_works : Yields "rem" camel [] [Peg.utf8 remGolden.source] Decides := tests_rem_tested.mono fun h => h.1

theorem tests_unionbasic_fails : Yields "unionbasic" camel [] [Peg.utf8 unionbasicGolden.source] fun p ext nm fs => Decides p ext nm fs ∧ FailingTest goEnv (seeded 1) p nm fs :=
  C72_failing (N := 400) (K := 12) (n := "basic") (by decide +kernel)

theorem tests_unionbasic_works : Yields "unionbasic" camel [] [Peg.utf8 unionbasicGolden.source] Decides := tests_unionbasic_fails.mono fun h => h.1

theorem tests_unioncmds_tested : Yields "unioncmds" camel [] [Peg.utf8 unioncmdsGolden.source] fun p ext nm fs => Decides p ext nm fs ∧ Passing p ext nm fs ∧ Covering p ext nm fs :=
  C72_covering (N := 400) (B := 2 ^ 16) (by decide +kernel)

theorem tests_unioncmds_works : Yields "unioncmds" camel [] [Peg.utf8 unioncmdsGolden.source] Decides := tests_unioncmds_tested.mono fun h => h.1

theorem tests_unionlen_tested : Yields "unionlen" camel [] [Peg.utf8 unionlenGolden.source] fun p ext nm fs => Decides p ext nm fs ∧ Passing p ext nm fs ∧ Covering p ext nm fs :=
  C72_covering (N := 400) (B := 2 ^ 16) (by decide +kernel)

theorem tests_unionlen_works : Yields "unionlen" camel [] [Peg.utf8 unionlenGolden.source] Decides := tests_unionlen_tested.mono fun h => h.1

theorem tests_unionlo_works : Yields "unionlo" camel [] [Peg.utf8 unionloGolden.source] Decides :=
  C69_decides (N := 400) (by decide +kernel)

theorem tests_unionlo_no_vectors : ∃ fs, ParsesAll [Peg.utf8 unionloGolden.source] fs ∧ NoVectors goEnv (seeded 0) fs :=
  C72_no_vectors (N := 400) (K := 30) (by decide +kernel)

theorem tests_vararray_tested : Yields "vararray" camel [] [Peg.utf8 vararrayGolden.source] fun p ext nm fs => Decides p ext nm fs ∧ Passing p ext nm fs ∧ Covering p ext nm fs :=
  C72_covering (N := 400) (B := 2 ^ 16) (by decide +kernel)

theorem tests_vararray_works : Yields "vararray" camel [] [Peg.utf8 vararrayGolden.source] Decides := tests_vararray_tested.mono fun h => h.1

theorem examples_color_color_tested : Yields "color" camel [] [Peg.utf8 examples_colorGolden.source] fun p ext nm fs => Decides p ext nm fs ∧ Passing p ext nm fs ∧ Covering p ext nm fs :=
  C72_covering (N := 400) (B := 2 ^ 16) (by decide +kernel)

theorem examples_color_color_works : Yields "color" camel [] [Peg.utf8 examples_colorGolden.source] Decides := examples_color_color_tested.mono fun h => h.1

theorem examples_date_date_tested : Yields "date" camel [] [Peg.utf8 examples_dateGolden.source] fun p ext nm fs => Decides p ext nm fs ∧ Passing p ext nm fs ∧ Covering p ext nm fs :=
  C72_covering (N := 400) (B := 2 ^ 16) (by decide +kernel)

theorem examples_date_date_works : Yields "date" camel [] [Peg.utf8 examples_dateGolden.source] Decides := examples_date_date_tested.mono fun h => h.1

end Verif.Props
