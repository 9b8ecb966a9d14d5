import Verif.Props.CodeSize
import Verif.Props.FormatTor
import Verif.Props.FormatParse
/-!
# Formats of the repository whose parsers work in linear time

The check of C78 evaluated in the kernel on trunnel files of /repo; `C78_work` then makes a statement about all inputs. The constants are
those of the general bound and not the best ones.
-/
namespace Verif.Props
open Verif Verif.Ast Verif.Go Verif.Go.Read Verif.Effects Verif.Golden Verif.Tv Verif.Formats

set_option maxRecDepth 100000

/-- What C78 says about a package without user types. -/
abbrev WorksIn (K C : Nat) (pkg : String) (srcs : List (List UInt8)) : Prop :=
  Yields pkg camel [] srcs fun p ext nm fs => Decides p ext nm fs ∧ Linear K C p ext nm fs

theorem tor_cell_common_linear : WorksIn 481 8741 "cell_common" [Peg.utf8 tor_cell_commonSrc] :=
  C78_work (N := 400) (c := 0) (by decide +kernel)

theorem tor_cell_rendezvous_linear : WorksIn 20 358 "cell_rendezvous" [Peg.utf8 tor_cell_rendezvousSrc] :=
  C78_work (N := 400) (c := 0) (by decide +kernel)

theorem tor_channelpadding_negotiation_linear : WorksIn 29 781 "channelpadding_negotiation" [Peg.utf8 tor_channelpadding_negotiationSrc] :=
  C78_work (N := 400) (c := 0) (by decide +kernel)

theorem tor_pwbox_linear : WorksIn 59 3361 "pwbox" [Peg.utf8 tor_pwboxSrc] :=
  C78_work (N := 400) (c := 0) (by decide +kernel)

theorem trunnel_simple_linear : WorksIn 27 673 "simple" [Peg.utf8 trunnel_simpleSrc] :=
  C78_work (N := 400) (c := 0) (by decide +kernel)

theorem gen_valid_i_recv_linear : WorksIn 11 97 "i_recv" [Peg.utf8 gen_valid_i_recvSrc] :=
  C78_work (N := 400) (c := 0) (by decide +kernel)

theorem gen_valid_t_recv_linear : WorksIn 14 166 "t_recv" [Peg.utf8 gen_valid_t_recvSrc] :=
  C78_work (N := 400) (c := 0) (by decide +kernel)

theorem parse_valid_union_var_array_linear : WorksIn 25 573 "unionvararray" [Peg.utf8 parse_valid_union_var_arraySrc] :=
  C78_work (N := 400) (c := 0) (by decide +kernel)

/-- The check refuses the source of C75 and C76 whose parser runs for as long as the fuel lasts on four bytes, though its parser always
returns; and bounds smaller than those computed. -/
example : linearB 1000 (10 ^ 9) (10 ^ 9) exNm exIdle = false ∧ returnsB exNm exIdle = true ∧
    linearB 0 1153 34721 exNm exLoops = true ∧ linearB 0 1152 34721 exNm exLoops = false := by
  decide +kernel

end Verif.Props
