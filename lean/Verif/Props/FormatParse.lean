import Verif.Props.TvFormats
import Verif.Props.FormatTrunnelMore
/-!
# The formats of the repository pass the check: test data of the source parser and the generator

All trunnel files of /repo, grouped as /repo/testdata/*/deps.yml says. The check is evaluated in the kernel; `C69_decides` then makes
a statement about all inputs, and `C72_covering` about all vectors and tests generated. The files the repository's tests expect to be
refused are refused.
-/
namespace Verif.Props
open Verif Verif.Ast Verif.Go Verif.Go.Read Verif.Effects Verif.Golden Verif.Tv

set_option maxRecDepth 100000

/-- gen/testdata/valid/i_recv.trunnel. -/
def gen_valid_i_recvSrc : List Char := List.flatten [
  chars! "// Same variable collision problem as t_recv.trunnel but with \"i\" instead.\n",
  chars! "struct i_recv {\n",
  chars! "    u8 bytes[8];\n",
  chars! "};\n"]

theorem gen_valid_i_recv_tested : Yields "i_recv" camel [] [Peg.utf8 gen_valid_i_recvSrc] fun p ext nm fs => Decides p ext nm fs ∧ Passing p ext nm fs ∧ Covering p ext nm fs :=
  C72_covering (N := 400) (B := 2 ^ 16) (by decide +kernel)

theorem gen_valid_i_recv_works : Yields "i_recv" camel [] [Peg.utf8 gen_valid_i_recvSrc] Decides := gen_valid_i_recv_tested.mono fun h => h.1

/-- gen/testdata/valid/t_recv.trunnel. -/
def gen_valid_t_recvSrc : List Char := List.flatten [
  chars! "// Earlier versions of this code picked variable names as follows:\n",
  chars! "// - first letter of type for receiver\n",
  chars! "// - temp variable for remaining arrays was also \"t\"\n",
  chars! "// The following code would trigger the bug.\n",
  chars! "struct t_recv {\n",
  chars! "    u8 rem[];\n",
  chars! "};\n"]

theorem gen_valid_t_recv_tested : Yields "t_recv" camel [] [Peg.utf8 gen_valid_t_recvSrc] fun p ext nm fs => Decides p ext nm fs ∧ Passing p ext nm fs ∧ Covering p ext nm fs :=
  C72_covering (N := 400) (B := 2 ^ 16) (by decide +kernel)

theorem gen_valid_t_recv_works : Yields "t_recv" camel [] [Peg.utf8 gen_valid_t_recvSrc] Decides := gen_valid_t_recv_tested.mono fun h => h.1

/-- parse/testdata/valid/tor.trunnel. -/
def parse_valid_torSrc : List Char := List.flatten [
  chars! "// Imported from trunnel repository with minor modifications (adding semi-colons\n",
  chars! "// after some unions).\n",
  chars! "\n",
  chars! "const PAYLOAD_LEN = 509;\n",
  chars! "const RELAY_PAYLOAD_LEN = 498;\n",
  chars! "\n",
  chars! "context conn_state {\n",
  chars! "   u8 wide_circids;\n",
  chars! "}\n",
  chars! "\n",
  chars! "struct cell with context conn_state {\n",
  chars! "   union circ_id[conn_state.wide_circids] {\n",
  chars! "      0: u16 circ_id16;\n",
  chars! "      1: u32 circ_id32;\n",
  chars! "   };\n",
  chars! "   u8 command;\n",
  chars! "   u8 body[PAYLOAD_LEN];\n",
  chars! "}\n",
  chars! "\n",
  chars! "struct var_cell with context conn_state {\n",
  chars! "   union circ_id[conn_state.wide_circids] {\n",
  chars! "      0: u16 circ_id16;\n",
  chars! "      1: u32 circ_id32;\n",
  chars! "   };\n",
  chars! "   u8 command IN [ 7, 128..255 ];\n",
  chars! "   u16 length;\n",
  chars! "   u8 body[length];\n",
  chars! "}\n",
  chars! "\n",
  chars! "struct versions_cell_body {\n",
  chars! "   u16 versions[];\n",
  chars! "}\n",
  chars! "\n",
  chars! "struct certs_cell_cert {\n",
  chars! "   u8 cert_type;\n",
  chars! "   u16 cert_len;\n",
  chars! "   u8 cert[cert_len];\n",
  chars! "}\n",
  chars! "\n",
  chars! "struct certs_cell_body {\n",
  chars! "   u8 n_certs;\n",
  chars! "   struct certs_cell_cert certs[n_certs];\n",
  chars! "}\n",
  chars! "\n",
  chars! "struct auth_challenge_cell {\n",
  chars! "   u8 challenge[32];\n",
  chars! "   u16 n_methods;\n",
  chars! "   u16 methods[n_methods];\n",
  chars! "}\n",
  chars! "\n",
  chars! "struct authenticate_cell {\n",
  chars! "   u16 auth_type;\n",
  chars! "   u16 auth_len;\n",
  chars! "   union authentication[auth_type] with length auth_len {\n",
  chars! "      1: struct rsa_sha256_tlssecret_auth rsa_auth;\n",
  chars! "      default: fail;\n",
  chars! "   };\n",
  chars! "}\n",
  chars! "\n",
  chars! "struct rsa_sha256_tlssecret_auth {\n",
  chars! "   u8 type[8];\n",
  chars! "   u8 cid[32];\n",
  chars! "   u8 sid[32];\n",
  chars! "   u8 slog[32];\n",
  chars! "   u8 clog[32];\n",
  chars! "   u8 scert[32];\n",
  chars! "   u8 tlssecrets[32];\n",
  chars! "   u8 rand[24];\n",
  chars! "   u8 sig[];\n",
  chars! "}\n",
  chars! "\n",
  chars! "struct encoded_address {\n",
  chars! "   u8 type;\n",
  chars! "   u8 len;\n",
  chars! "   union addr[type] with length len {\n",
  chars! "      0: u8 hostname[];\n",
  chars! "      4: u32 ipv4_addr;\n",
  chars! "      6: u8 ipv6_addr[16];\n",
  chars! "      default: ignore;\n",
  chars! "   };\n",
  chars! "}\n",
  chars! "\n",
  chars! "struct netinfo_cell {\n",
  chars! "   u32 timestamp;\n",
  chars! "   struct encoded_address your_addr;\n",
  chars! "   u8 n_addrs;\n",
  chars! "   struct encoded_address my_addrs[n_addrs];\n",
  chars! "}\n",
  chars! "\n",
  chars! "struct create2_cell {\n",
  chars! "   u16 htype;\n",
  chars! "   u16 hlen;\n",
  chars! "   union hdata[htype] with length hlen {\n",
  chars! "      0: struct tap_client_handshake tap;\n",
  chars! "      2: struct ntor_client_handshake ntor;\n",
  chars! "      default: fail;\n",
  chars! "   };\n",
  chars! "}\n",
  chars! "\n",
  chars! "struct created2_cell {\n",
  chars! "  u16 hlen;\n",
  chars! "  u8 hdata[hlen];\n",
  chars! "}\n",
  chars! "\n",
  chars! "struct extend2_cell {\n",
  chars! "  u8 n_specs;\n",
  chars! "  struct link_specifier linkspecs[n_specs];\n",
  chars! "  u8 create2_cell[];\n",
  chars! "}\n",
  chars! "\n",
  chars! "const LS_IPV4 = 0x00;\n",
  chars! "const LS_IPV6 = 0x01;\n",
  chars! "const LS_LEGACY_ID = 0x02;\n",
  chars! "\n",
  chars! "struct link_specifier {\n",
  chars! "  u8 ls_type;\n",
  chars! "  u8 ls_len;\n",
  chars! "  union un[ls_type] with length ls_len {\n",
  chars! "    LS_IPV4: u32 ipv4_addr; u16 ipv4_port;\n",
  chars! "    LS_IPV6: u8 ipv6_addr[16]; u16 ipv6_port;\n",
  chars! "    LS_LEGACY_ID: u8 legacy_id[20];\n",
  chars! "    default: u8 unrecognized[];\n",
  chars! "  };\n",
  chars! "}\n",
  chars! "\n",
  chars! "const TAP_C_HANDSHAKE_LEN = 298;\n",
  chars! "const TAP_S_HANDSHAKE_LEN = 148;\n",
  chars! "const LEGACY_ID_LEN = 20;\n",
  chars! "\n",
  chars! "struct extend_cell {\n",
  chars! "  u32 addr;\n",
  chars! "  u16 port;\n",
  chars! "  u8 onion_skin[TAP_C_HANDSHAKE_LEN];\n",
  chars! "  u8 node_id[LEGACY_ID_LEN];\n",
  chars! "}\n",
  chars! "\n",
  chars! "struct tap_client_handshake {\n",
  chars! "   u8 pk_part[128];\n",
  chars! "   u8 symmetric_part[100];\n",
  chars! "}\n",
  chars! "\n",
  chars! "struct tap_server_handshake {\n",
  chars! "   u8 dh_data[128];\n",
  chars! "   u8 kh[20];\n",
  chars! "}\n",
  chars! "\n",
  chars! "struct ntor_client_handshake {\n",
  chars! "   u8 node_ids[20];\n",
  chars! "   u32 keyid[32];\n",
  chars! "   u32 client_pk[32];\n",
  chars! "}\n",
  chars! "\n",
  chars! "struct ntor_server_handshake {\n",
  chars! "   u32 server_pk[32];\n",
  chars! "   u32 auth[32];\n",
  chars! "}\n",
  chars! "\n",
  chars! "struct create_fast_cell {\n",
  chars! "   u8 key[20];\n",
  chars! "}\n",
  chars! "\n",
  chars! "struct created_fast_cell {\n",
  chars! "   u8 key[20];\n",
  chars! "   u8 derivative_key_data[20];\n",
  chars! "}\n",
  chars! "\n",
  chars! "struct relay_cell_body {\n",
  chars! "   u8 relay_command;\n",
  chars! "   u16 recognized;\n",
  chars! "   u16 stream_id;\n",
  chars! "   u8 digest[4];\n",
  chars! "   u16 len IN [ 0..RELAY_PAYLOAD_LEN ];\n",
  chars! "   u8 data[RELAY_PAYLOAD_LEN];\n",
  chars! "}\n",
  chars! "\n",
  chars! "struct begin_cell_body {\n",
  chars! "   nulterm addrport;\n",
  chars! "   u32 flags;\n",
  chars! "}\n",
  chars! "\n",
  chars! "struct connected_cell {\n",
  chars! "   u32 ipv4_addr;\n",
  chars! "   union ext_addr[ipv4_addr] {\n",
  chars! "     0: ;\n",
  chars! "     default:\n",
  chars! "              u8 addrtype IN [6];\n",
  chars! "              u8 ipv6_addr[16];\n",
  chars! "   };\n",
  chars! "   u32 ttl;\n",
  chars! "}\n",
  chars! "\n",
  chars! "struct resolved_cell_item {\n",
  chars! "   struct encoded_address answer;\n",
  chars! "   u32 ttl;\n",
  chars! "}\n",
  chars! "\n",
  chars! "struct resolved_cell {\n",
  chars! "   struct resolved_cell_item answers[];\n",
  chars! "}\n"]

theorem parse_valid_tor_works : Yields "tor" camel [] [Peg.utf8 parse_valid_torSrc] Decides :=
  C69_decides (N := 400) (by decide +kernel)

/-- parse/testdata/valid/union-var-array.trunnel. -/
def parse_valid_union_var_arraySrc : List Char := List.flatten [
  chars! "struct var_array_inside_union {\n",
  chars! "   u8 a;\n",
  chars! "   union u[a] {\n",
  chars! "      0:  u16 n;\n",
  chars! "          u8 b[n];\n",
  chars! "   };\n",
  chars! "}\n"]

theorem parse_valid_union_var_array_tested : Yields "unionvararray" camel [] [Peg.utf8 parse_valid_union_var_arraySrc] fun p ext nm fs => Decides p ext nm fs ∧ Passing p ext nm fs ∧ Covering p ext nm fs :=
  C72_covering (N := 400) (B := 2 ^ 16) (by decide +kernel)

theorem parse_valid_union_var_array_works : Yields "unionvararray" camel [] [Peg.utf8 parse_valid_union_var_arraySrc] Decides := parse_valid_union_var_array_tested.mono fun h => h.1

/-- parse/testdata/failing/eos-not-at-end.trunnel. -/
def parse_failing_eos_not_at_endSrc : List Char := List.flatten [
  chars! "struct misplaced_eos {\n",
  chars! "  u8 x;\n",
  chars! "  eos;\n",
  chars! "  u8 y;\n",
  chars! "};\n"]

theorem parse_failing_eos_not_at_end_refused : Refuses (Peg.utf8 parse_failing_eos_not_at_endSrc) := refuses_of (N := 400) (by decide +kernel)

/-- parse/testdata/failing/inner-struct-semi.trunnel. -/
def parse_failing_inner_struct_semiSrc : List Char := List.flatten [
  chars! "struct inner_struct_with_semi_colon {\n",
  chars! "  struct inner { u8 a; u32 b; }; x[3];\n",
  chars! "}\n"]

theorem parse_failing_inner_struct_semi_refused : Refuses (Peg.utf8 parse_failing_inner_struct_semiSrc) := refuses_of (N := 400) (by decide +kernel)

/-- parse/testdata/failing/missing-member-name.trunnel. -/
def parse_failing_missing_member_nameSrc : List Char := List.flatten [
  chars! "struct encrypted_record with context stream_settings {\n",
  chars! "  u16 n_blocks;\n",
  chars! "  // following problem seen in trunnel manual\n",
  chars! "  struct block[n_blocks];\n",
  chars! "}\n"]

theorem parse_failing_missing_member_name_refused : Refuses (Peg.utf8 parse_failing_missing_member_nameSrc) := refuses_of (N := 400) (by decide +kernel)

/-- parse/testdata/failing/multi-eos.trunnel. -/
def parse_failing_multi_eosSrc : List Char := List.flatten [
  chars! "struct multi_eos {\n",
  chars! "  u8 x;\n",
  chars! "  eos;\n",
  chars! "  eos;\n",
  chars! "};\n"]

theorem parse_failing_multi_eos_refused : Refuses (Peg.utf8 parse_failing_multi_eosSrc) := refuses_of (N := 400) (by decide +kernel)

/-- parse/testdata/failing/multi-remainder-arrays.trunnel. -/
def parse_failing_multi_remainder_arraysSrc : List Char := List.flatten [
  chars! "struct multi_remainder_arrays {\n",
  chars! "  u8 remaining_bytes[];\n",
  chars! "  u32 remaining_words[];\n",
  chars! "};\n"]

theorem parse_failing_multi_remainder_arrays_refused : Refuses (Peg.utf8 parse_failing_multi_remainder_arraysSrc) := refuses_of (N := 400) (by decide +kernel)

/-- parse/testdata/failing/remander-not-at-end.trunnel. -/
def parse_failing_remander_not_at_endSrc : List Char := List.flatten [
  chars! "struct remainder_not_at_end {\n",
  chars! "  u8 a;\n",
  chars! "  u8 b[];\n",
  chars! "  u8 c;\n",
  chars! "};\n"]

theorem parse_failing_remander_not_at_end_refused : Refuses (Peg.utf8 parse_failing_remander_not_at_endSrc) := refuses_of (N := 400) (by decide +kernel)

/-- parse/testdata/failing/union-double-semi-ignore.trunnel. -/
def parse_failing_union_double_semi_ignoreSrc : List Char := List.flatten [
  chars! "struct double_semi {\n",
  chars! "    u8 tag;\n",
  chars! "    union addr[tag] {\n",
  chars! "       4 : ignore; ;\n",
  chars! "    };\n",
  chars! "}\n"]

theorem parse_failing_union_double_semi_ignore_refused : Refuses (Peg.utf8 parse_failing_union_double_semi_ignoreSrc) := refuses_of (N := 400) (by decide +kernel)

/-- parse/testdata/failing/union-double-semi.trunnel. -/
def parse_failing_union_double_semiSrc : List Char := List.flatten [
  chars! "struct double_semi {\n",
  chars! "    u8 tag;\n",
  chars! "    u16 length;\n",
  chars! "    union addr[tag] with length length {\n",
  chars! "       4 : u32 ipv4_addr; ;\n",
  chars! "    };\n",
  chars! "}\n"]

theorem parse_failing_union_double_semi_refused : Refuses (Peg.utf8 parse_failing_union_double_semiSrc) := refuses_of (N := 400) (by decide +kernel)

/-- parse/testdata/failing/union-ellipsis-after-fail.trunnel. -/
def parse_failing_union_ellipsis_after_failSrc : List Char := List.flatten [
  chars! "struct ellipsis_after_fail {\n",
  chars! "    u8 tag;\n",
  chars! "    union addr[tag] {\n",
  chars! "       4 : fail; ...;\n",
  chars! "    };\n",
  chars! "}\n"]

theorem parse_failing_union_ellipsis_after_fail_refused : Refuses (Peg.utf8 parse_failing_union_ellipsis_after_failSrc) := refuses_of (N := 400) (by decide +kernel)

/-- parse/testdata/failing/union-ellipsis-after-ignore.trunnel. -/
def parse_failing_union_ellipsis_after_ignoreSrc : List Char := List.flatten [
  chars! "struct ellipsis_after_ignore {\n",
  chars! "    u8 tag;\n",
  chars! "    union addr[tag] {\n",
  chars! "       4 : ignore; ...;\n",
  chars! "    };\n",
  chars! "}\n"]

theorem parse_failing_union_ellipsis_after_ignore_refused : Refuses (Peg.utf8 parse_failing_union_ellipsis_after_ignoreSrc) := refuses_of (N := 400) (by decide +kernel)

/-- parse/testdata/failing/union-eos.trunnel. -/
def parse_failing_union_eosSrc : List Char := List.flatten [
  chars! "struct rem_not_last {\n",
  chars! "    u8 tag;\n",
  chars! "    union addr[tag] {\n",
  chars! "       4 : u8 a; u8 b; eos;\n",
  chars! "    };\n",
  chars! "}\n"]

theorem parse_failing_union_eos_refused : Refuses (Peg.utf8 parse_failing_union_eosSrc) := refuses_of (N := 400) (by decide +kernel)

/-- parse/testdata/failing/union-fields-after-fail.trunnel. -/
def parse_failing_union_fields_after_failSrc : List Char := List.flatten [
  chars! "struct field_after_fail {\n",
  chars! "    u8 tag;\n",
  chars! "    union addr[tag] {\n",
  chars! "       4 : fail; u8 b;\n",
  chars! "    };\n",
  chars! "}\n"]

theorem parse_failing_union_fields_after_fail_refused : Refuses (Peg.utf8 parse_failing_union_fields_after_failSrc) := refuses_of (N := 400) (by decide +kernel)

/-- parse/testdata/failing/union-fields-after-ignore.trunnel. -/
def parse_failing_union_fields_after_ignoreSrc : List Char := List.flatten [
  chars! "struct field_after_ignore {\n",
  chars! "    u8 tag;\n",
  chars! "    union addr[tag] {\n",
  chars! "       4 : ignore; u8 b;\n",
  chars! "    };\n",
  chars! "}\n"]

theorem parse_failing_union_fields_after_ignore_refused : Refuses (Peg.utf8 parse_failing_union_fields_after_ignoreSrc) := refuses_of (N := 400) (by decide +kernel)

/-- parse/testdata/failing/union-rem-after-fail.trunnel. -/
def parse_failing_union_rem_after_failSrc : List Char := List.flatten [
  chars! "struct rem_after_fail {\n",
  chars! "    u8 tag;\n",
  chars! "    union addr[tag] {\n",
  chars! "       4 : fail; u8 rem[];\n",
  chars! "    };\n",
  chars! "}\n"]

theorem parse_failing_union_rem_after_fail_refused : Refuses (Peg.utf8 parse_failing_union_rem_after_failSrc) := refuses_of (N := 400) (by decide +kernel)

/-- parse/testdata/failing/union-rem-after-ignore.trunnel. -/
def parse_failing_union_rem_after_ignoreSrc : List Char := List.flatten [
  chars! "struct rem_after_ignore {\n",
  chars! "    u8 tag;\n",
  chars! "    union addr[tag] {\n",
  chars! "       4 : ignore; u8 rem[];\n",
  chars! "    };\n",
  chars! "}\n"]

theorem parse_failing_union_rem_after_ignore_refused : Refuses (Peg.utf8 parse_failing_union_rem_after_ignoreSrc) := refuses_of (N := 400) (by decide +kernel)

/-- parse/testdata/failing/union-rem-not-last.trunnel. -/
def parse_failing_union_rem_not_lastSrc : List Char := List.flatten [
  chars! "struct rem_not_last {\n",
  chars! "    u8 tag;\n",
  chars! "    union addr[tag] {\n",
  chars! "       4 : u8 rem[]; u8 bad;\n",
  chars! "    };\n",
  chars! "}\n"]

theorem parse_failing_union_rem_not_last_refused : Refuses (Peg.utf8 parse_failing_union_rem_not_lastSrc) := refuses_of (N := 400) (by decide +kernel)

end Verif.Props
