import Verif.Props.TvFormats
import Verif.Props.FormatTrunnelSources
/-!
# The formats of the repository pass the check: testdata/trunnel

All trunnel files of /repo, grouped as /repo/testdata/*/deps.yml says. The check is evaluated in the kernel; `C69_decides` then makes
a statement about all inputs, and `C72_covering` about all vectors and tests generated. The files the repository's tests expect to be
refused are refused.
-/
namespace Verif.Props
open Verif Verif.Ast Verif.Go Verif.Go.Read Verif.Effects Verif.Golden Verif.Tv

set_option maxRecDepth 100000

theorem trunnel_contexts_tested : Yields "contexts" camel [] [Peg.utf8 trunnel_contextsSrc] fun p ext nm fs => Decides p ext nm fs ∧ Passing p ext nm fs :=
  C72_passing (N := 400) (B := 256) (by decide +kernel)

theorem trunnel_contexts_works : Yields "contexts" camel [] [Peg.utf8 trunnel_contextsSrc] Decides := trunnel_contexts_tested.mono fun h => h.1

theorem trunnel_example_works : Yields "example" camel [] [Peg.utf8 trunnel_exampleSrc] Decides :=
  C69_decides (N := 400) (by decide +kernel)

theorem trunnel_example2_works : Yields "example2" camel [] [Peg.utf8 trunnel_example2Src] Decides :=
  C69_decides (N := 400) (by decide +kernel)

theorem trunnel_leftover_works : Yields "leftover" camel [] [Peg.utf8 trunnel_leftoverSrc] Decides :=
  C69_decides (N := 400) (by decide +kernel)

theorem trunnel_leftover_no_vectors : ∃ fs, ParsesAll [Peg.utf8 trunnel_leftoverSrc] fs ∧ NoVectors goEnv (seeded 0) fs :=
  C72_no_vectors (N := 400) (K := 30) (by decide +kernel)

theorem trunnel_positions_tested : Yields "positions" camel [] [Peg.utf8 trunnel_positionsSrc] fun p ext nm fs => Decides p ext nm fs ∧ Passing p ext nm fs ∧ Covering p ext nm fs :=
  C72_covering (N := 400) (B := 2 ^ 16) (by decide +kernel)

theorem trunnel_positions_works : Yields "positions" camel [] [Peg.utf8 trunnel_positionsSrc] Decides := trunnel_positions_tested.mono fun h => h.1

theorem trunnel_prop220_works : Yields "prop220" camel [] [Peg.utf8 trunnel_prop220Src] Decides :=
  C69_decides (N := 400) (by decide +kernel)

theorem trunnel_simple_tested : Yields "simple" camel [] [Peg.utf8 trunnel_simpleSrc] fun p ext nm fs => Decides p ext nm fs ∧ Passing p ext nm fs ∧ Covering p ext nm fs :=
  C72_covering (N := 400) (B := 2 ^ 16) (by decide +kernel)

theorem trunnel_simple_works : Yields "simple" camel [] [Peg.utf8 trunnel_simpleSrc] Decides := trunnel_simple_tested.mono fun h => h.1

theorem trunnel_opaque_tested : Yields "opaque" camel [] [Peg.utf8 trunnel_opaqueSrc, Peg.utf8 trunnel_simpleSrc] fun p ext nm fs => Decides p ext nm fs ∧ Passing p ext nm fs ∧ Covering p ext nm fs :=
  C72_covering (N := 400) (B := 2 ^ 16) (by decide +kernel)

theorem trunnel_opaque_works : Yields "opaque" camel [] [Peg.utf8 trunnel_opaqueSrc, Peg.utf8 trunnel_simpleSrc] Decides := trunnel_opaque_tested.mono fun h => h.1

end Verif.Props
