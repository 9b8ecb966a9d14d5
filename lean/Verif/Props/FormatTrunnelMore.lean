import Verif.Props.TvFormats
import Verif.Props.FormatTrunnelSources
import Verif.Props.FormatTrunnel
/-!
# The formats of the repository pass the check: testdata/trunnel

All trunnel files of /repo, grouped as /repo/testdata/*/deps.yml says. The check is evaluated in the kernel; `C69_decides` then makes
a statement about all inputs, and `C72_covering` about all vectors and tests generated. The files the repository's tests expect to be
refused are refused.
-/
namespace Verif.Props
open Verif Verif.Ast Verif.Go Verif.Go.Read Verif.Effects Verif.Golden Verif.Tv

set_option maxRecDepth 100000

theorem trunnel_socks5_fails : Yields "socks5" camel [] [Peg.utf8 trunnel_socks5Src] fun p ext nm fs => Decides p ext nm fs ∧ FailingTest listEnv ([], 0) p nm fs :=
  C72_failing (N := 400) (K := 12) (n := "socks5_client_request") (by decide +kernel)

theorem trunnel_socks5_works : Yields "socks5" camel [] [Peg.utf8 trunnel_socks5Src] Decides := trunnel_socks5_fails.mono fun h => h.1

theorem trunnel_tor_rend_works : Yields "torrend" camel [] [Peg.utf8 trunnel_tor_rendSrc] Decides :=
  C69_decides (N := 400) (by decide +kernel)

theorem trunnel_derived_works : Yields "derived" camel [] [Peg.utf8 trunnel_derivedSrc, Peg.utf8 trunnel_simpleSrc] Exact :=
  C69_exact (N := 400) (by decide +kernel)

theorem trunnel_prop224_works : Yields "prop224" camel [] [Peg.utf8 trunnel_prop224Src, Peg.utf8 trunnel_prop220Src] Decides :=
  C69_decides (N := 400) (by decide +kernel)

end Verif.Props
