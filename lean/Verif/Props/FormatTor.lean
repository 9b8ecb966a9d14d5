import Verif.Props.TvFormats
/-!
# The formats of the repository pass the check: testdata/tor

All trunnel files of /repo, grouped as /repo/testdata/*/deps.yml says. The check is evaluated in the kernel; `C69_decides` then makes
a statement about all inputs, and `C72_covering` about all vectors and tests generated. The files the repository's tests expect to be
refused are refused.
-/
namespace Verif.Props
open Verif Verif.Ast Verif.Go Verif.Go.Read Verif.Effects Verif.Golden Verif.Tv

set_option maxRecDepth 100000

/-- testdata/tor/cell_common.trunnel. -/
def tor_cell_commonSrc : List Char := List.flatten [
  chars! "/* This file contains common data structure that cells use. */\n",
  chars! "\n",
  chars! "struct trn_cell_extension_fields {\n",
  chars! "  u8 field_type;\n",
  chars! "  u8 field_len;\n",
  chars! "  u8 field[field_len];\n",
  chars! "};\n",
  chars! "\n",
  chars! "struct trn_cell_extension {\n",
  chars! "  u8 num;\n",
  chars! "  struct trn_cell_extension_fields fields[num];\n",
  chars! "};\n"]

theorem tor_cell_common_tested : Yields "cell_common" camel [] [Peg.utf8 tor_cell_commonSrc] fun p ext nm fs => Decides p ext nm fs ∧ Passing p ext nm fs ∧ Covering p ext nm fs :=
  C72_covering (N := 400) (B := 2 ^ 16) (by decide +kernel)

theorem tor_cell_common_works : Yields "cell_common" camel [] [Peg.utf8 tor_cell_commonSrc] Decides := tor_cell_common_tested.mono fun h => h.1

/-- testdata/tor/cell_rendezvous.trunnel. -/
def tor_cell_rendezvousSrc : List Char := List.flatten [
  chars! "/*\n",
  chars! " * This contains the definition of the RENDEZVOUS1/2 cell for onion service\n",
  chars! " * version 3 and onward. The following format is specified in proposal 224\n",
  chars! " * section 4.2.\n",
  chars! " */\n",
  chars! "\n",
  chars! "/* Rendezvous cookie length. */\n",
  chars! "const TRUNNEL_REND_COOKIE_LEN = 20;\n",
  chars! "/* The HANDSHAKE_INFO field layout is as follow:\n",
  chars! " *    SERVER_PK   [PK_PUBKEY_LEN bytes]\n",
  chars! " *    AUTH        [MAC_LEN bytes]\n",
  chars! " * This means, the size is 32 bytes + 32 bytes. */\n",
  chars! "const TRUNNEL_HANDSHAKE_INFO_LEN = 64;\n",
  chars! "\n",
  chars! "/* RENDEZVOUS1 payload. See details in section 4.2. */\n",
  chars! "struct trn_cell_rendezvous1 {\n",
  chars! "  /* The RENDEZVOUS_COOKIE field. */\n",
  chars! "  u8 rendezvous_cookie[TRUNNEL_REND_COOKIE_LEN];\n",
  chars! "  \n",
  chars! "  /* The HANDSHAKE_INFO field which has a variable length depending on the\n",
  chars! "   * handshake type used. */\n",
  chars! "  u8 handshake_info[];\n",
  chars! "};\n",
  chars! "\n",
  chars! "/* RENDEZVOUS2 payload. See details in section 4.2. */\n",
  chars! "struct trn_cell_rendezvous2 {\n",
  chars! "  /* The HANDSHAKE_INFO field. */\n",
  chars! "  u8 handshake_info[TRUNNEL_HANDSHAKE_INFO_LEN];\n",
  chars! "};\n"]

theorem tor_cell_rendezvous_tested : Yields "cell_rendezvous" camel [] [Peg.utf8 tor_cell_rendezvousSrc] fun p ext nm fs => Decides p ext nm fs ∧ Passing p ext nm fs ∧ Covering p ext nm fs :=
  C72_covering (N := 400) (B := 2 ^ 16) (by decide +kernel)

theorem tor_cell_rendezvous_works : Yields "cell_rendezvous" camel [] [Peg.utf8 tor_cell_rendezvousSrc] Decides := tor_cell_rendezvous_tested.mono fun h => h.1

/-- testdata/tor/channelpadding_negotiation.trunnel. -/
def tor_channelpadding_negotiationSrc : List Char := List.flatten [
  chars! "const CHANNELPADDING_COMMAND_STOP = 1;\n",
  chars! "const CHANNELPADDING_COMMAND_START = 2;\n",
  chars! "\n",
  chars! "/* This command tells the relay to alter its min and max netflow\n",
  chars! "   timeout range values, and send padding at that rate (resuming\n",
  chars! "   if stopped). */\n",
  chars! "struct channelpadding_negotiate {\n",
  chars! "  u8 version IN [0];\n",
  chars! "  u8 command IN [CHANNELPADDING_COMMAND_START, CHANNELPADDING_COMMAND_STOP];\n",
  chars! "\n",
  chars! "  /* Min must not be lower than the current consensus parameter\n",
  chars! "     nf_ito_low. */\n",
  chars! "  u16 ito_low_ms;\n",
  chars! "\n",
  chars! "  /* Max must not be lower than ito_low_ms */\n",
  chars! "  u16 ito_high_ms;\n",
  chars! "};\n"]

theorem tor_channelpadding_negotiation_tested : Yields "channelpadding_negotiation" camel [] [Peg.utf8 tor_channelpadding_negotiationSrc] fun p ext nm fs => Decides p ext nm fs ∧ Passing p ext nm fs ∧ Covering p ext nm fs :=
  C72_covering (N := 400) (B := 2 ^ 16) (by decide +kernel)

theorem tor_channelpadding_negotiation_works : Yields "channelpadding_negotiation" camel [] [Peg.utf8 tor_channelpadding_negotiationSrc] Decides := tor_channelpadding_negotiation_tested.mono fun h => h.1

/-- testdata/tor/ed25519_cert.trunnel. -/
def tor_ed25519_certSrc : List Char := List.flatten [
  chars! "\n",
  chars! "struct ed25519_cert {\n",
  chars! "  u8 version IN [1];\n",
  chars! "  u8 cert_type;\n",
  chars! "  u32 exp_field;\n",
  chars! "  u8 cert_key_type;\n",
  chars! "  u8 certified_key[32];\n",
  chars! "  u8 n_extensions;\n",
  chars! "  struct ed25519_cert_extension ext[n_extensions];\n",
  chars! "  u8 signature[64];\n",
  chars! "}\n",
  chars! "\n",
  chars! "const CERTEXT_SIGNED_WITH_KEY = 4;\n",
  chars! "const CERTEXT_FLAG_AFFECTS_VALIDATION = 1;\n",
  chars! "\n",
  chars! "struct ed25519_cert_extension {\n",
  chars! "  u16 ext_length;\n",
  chars! "  u8 ext_type;\n",
  chars! "  u8 ext_flags;\n",
  chars! "  union un[ext_type] with length ext_length {\n",
  chars! "    CERTEXT_SIGNED_WITH_KEY : u8 signing_key[32];\n",
  chars! "    default: u8 unparsed[];\n",
  chars! "  };\n",
  chars! "}\n",
  chars! "\n",
  chars! "const LS_IPV4 = 0x00;\n",
  chars! "const LS_IPV6 = 0x01;\n",
  chars! "const LS_LEGACY_ID = 0x02;\n",
  chars! "const LS_ED25519_ID = 0x03;\n",
  chars! "\n",
  chars! "// XXX hs_link_specifier_dup() violates the opaqueness of link_specifier_t by\n",
  chars! "//  taking its sizeof(). If we ever want to turn on TRUNNEL_OPAQUE, or\n",
  chars! "//  if we ever make link_specifier contain other types, we will\n",
  chars! "//  need to refactor that function to do the copy by encoding and decoding the\n",
  chars! "//  object.\n",
  chars! "\n",
  chars! "// amended from tor.trunnel\n",
  chars! "struct link_specifier {\n",
  chars! "  u8 ls_type;\n",
  chars! "  u8 ls_len;\n",
  chars! "  union un[ls_type] with length ls_len {\n",
  chars! "    LS_IPV4: u32 ipv4_addr; u16 ipv4_port;\n",
  chars! "    LS_IPV6: u8 ipv6_addr[16]; u16 ipv6_port;\n",
  chars! "    LS_LEGACY_ID: u8 legacy_id[20];\n",
  chars! "    LS_ED25519_ID: u8 ed25519_id[32];\n",
  chars! "    default: u8 unrecognized[];\n",
  chars! "  };\n",
  chars! "}\n",
  chars! "\n",
  chars! "struct link_specifier_list {\n",
  chars! "  u8 n_spec;\n",
  chars! "  struct link_specifier spec[n_spec];\n",
  chars! "}\n",
  chars! "\n",
  chars! "struct extend1_cell_body {\n",
  chars! "  u32 ipv4addr;\n",
  chars! "  u16 port;\n",
  chars! "  u8 onionskin[186];\n",
  chars! "  u8 identity[20];\n",
  chars! "}\n",
  chars! "\n",
  chars! "struct create2_cell_body {\n",
  chars! "  u16 handshake_type;\n",
  chars! "  u16 handshake_len;\n",
  chars! "  u8 handshake_data[handshake_len];\n",
  chars! "}\n",
  chars! "\n",
  chars! "struct extend2_cell_body {\n",
  chars! "  u8 n_spec;\n",
  chars! "  struct link_specifier ls[n_spec];\n",
  chars! "  struct create2_cell_body create2;\n",
  chars! "}\n"]

theorem tor_ed25519_cert_works : Yields "ed25519_cert" camel [] [Peg.utf8 tor_ed25519_certSrc] Decides :=
  C69_decides (N := 400) (by decide +kernel)

/-- testdata/tor/link_handshake.trunnel. -/
def tor_link_handshakeSrc : List Char := List.flatten [
  chars! "\n",
  chars! "struct certs_cell {\n",
  chars! "  u8 n_certs;\n",
  chars! "  struct certs_cell_cert certs[n_certs];\n",
  chars! "}\n",
  chars! "\n",
  chars! "const CERTTYPE_RSA1024_ID_LINK = 1;\n",
  chars! "const CERTTYPE_RSA1024_ID_ID   = 2;\n",
  chars! "const CERTTYPE_RSA1024_ID_AUTH = 3;\n",
  chars! "const CERTTYPE_ED_ID_SIGN      = 4;\n",
  chars! "const CERTTYPE_ED_SIGN_LINK    = 5;\n",
  chars! "const CERTTYPE_ED_SIGN_AUTH    = 6;\n",
  chars! "const CERTTYPE_RSA1024_ID_EDID = 7;\n",
  chars! "\n",
  chars! "struct certs_cell_cert {\n",
  chars! "  u8 cert_type;\n",
  chars! "  u16 cert_len;\n",
  chars! "  u8 body[cert_len];\n",
  chars! "}\n",
  chars! "\n",
  chars! "struct rsa_ed_crosscert {\n",
  chars! "  u8 ed_key[32];\n",
  chars! "  u32 expiration;\n",
  chars! "  @ptr end_of_signed;\n",
  chars! "  u8 sig_len;\n",
  chars! "  u8 sig[sig_len]; // mismatches spec.\n",
  chars! "}\n",
  chars! "\n",
  chars! "struct auth_challenge_cell {\n",
  chars! "  u8 challenge[32];\n",
  chars! "  u16 n_methods;\n",
  chars! "  u16 methods[n_methods];\n",
  chars! "}\n",
  chars! "\n",
  chars! "context auth_ctx {\n",
  chars! "  u8 is_ed;\n",
  chars! "}\n",
  chars! "\n",
  chars! "struct auth1 with context auth_ctx {\n",
  chars! "  u8 type[8];\n",
  chars! "  u8 cid[32];\n",
  chars! "  u8 sid[32];\n",
  chars! "  union u1[auth_ctx.is_ed] {\n",
  chars! "    0 : ;\n",
  chars! "    1 : u8 cid_ed[32];\n",
  chars! "        u8 sid_ed[32];\n",
  chars! "    default: fail;\n",
  chars! "  };\n",
  chars! "  u8 slog[32];\n",
  chars! "  u8 clog[32];\n",
  chars! "  u8 scert[32];\n",
  chars! "  u8 tlssecrets[32];\n",
  chars! "  @ptr end_of_fixed_part;\n",
  chars! "  u8 rand[24];\n",
  chars! "  @ptr end_of_signed;\n",
  chars! "  u8 sig[];\n",
  chars! "}\n"]

theorem tor_link_handshake_tested : Yields "link_handshake" camel [] [Peg.utf8 tor_link_handshakeSrc] fun p ext nm fs => Decides p ext nm fs ∧ Passing p ext nm fs ∧ Covering p ext nm fs :=
  C72_covering (N := 400) (B := 2 ^ 16) (by decide +kernel)

theorem tor_link_handshake_works : Yields "link_handshake" camel [] [Peg.utf8 tor_link_handshakeSrc] Decides := tor_link_handshake_tested.mono fun h => h.1

/-- testdata/tor/pwbox.trunnel. -/
def tor_pwboxSrc : List Char := List.flatten [
  chars! "\n",
  chars! "const PWBOX0_CONST0 = 0x544f5242; // TORB\n",
  chars! "const PWBOX0_CONST1 = 0x4f583030; // OX00\n",
  chars! "\n",
  chars! "struct pwbox_encoded {\n",
  chars! "  u32 fixedbytes0 IN [PWBOX0_CONST0];\n",
  chars! "  u32 fixedbytes1 IN [PWBOX0_CONST1];\n",
  chars! "  u8 header_len;\n",
  chars! "  u8 skey_header[header_len];\n",
  chars! "  u8 iv[16];\n",
  chars! "  u8 data[..-32];\n",
  chars! "  u8 hmac[32];\n",
  chars! "};\n",
  chars! "\n"]

theorem tor_pwbox_works : Yields "pwbox" camel [] [Peg.utf8 tor_pwboxSrc] Decides :=
  C69_decides (N := 400) (by decide +kernel)

theorem tor_pwbox_no_vectors : ∃ fs, ParsesAll [Peg.utf8 tor_pwboxSrc] fs ∧ NoVectors goEnv (seeded 0) fs :=
  C72_no_vectors (N := 400) (K := 30) (by decide +kernel)

/-- testdata/tor/cell_establish_intro.trunnel. -/
def tor_cell_establish_introSrc : List Char := List.flatten [
  chars! "/*\n",
  chars! " * This contains the definition of the ESTABLISH_INTRO and INTRO_ESTABLISHED\n",
  chars! " * cell for onion service version 3 and onward. The following format is\n",
  chars! " * specified in proposal 224 section 3.1.\n",
  chars! " */\n",
  chars! "\n",
  chars! "extern struct trn_cell_extension;\n",
  chars! "\n",
  chars! "const TRUNNEL_SHA3_256_LEN = 32;\n",
  chars! "\n",
  chars! "/* ESTABLISH_INTRO payload. See details in section 3.1.1 */\n",
  chars! "struct trn_cell_establish_intro {\n",
  chars! "  /* Indicate the start of the handshake authentication data. */\n",
  chars! "  @ptr start_cell;\n",
  chars! "\n",
  chars! "  /* Authentication key material. */\n",
  chars! "  u8 auth_key_type IN [0x00, 0x01, 0x02];\n",
  chars! "  u16 auth_key_len;\n",
  chars! "  u8 auth_key[auth_key_len];\n",
  chars! "\n",
  chars! "  /* Extension(s). Reserved fields. */\n",
  chars! "  struct trn_cell_extension extensions;\n",
  chars! "  @ptr end_mac_fields;\n",
  chars! "\n",
  chars! "  /* Handshake MAC. */\n",
  chars! "  u8 handshake_mac[TRUNNEL_SHA3_256_LEN];\n",
  chars! "\n",
  chars! "  /* Signature */\n",
  chars! "  /* Indicate the end of the handshake authentication data. */\n",
  chars! "  @ptr end_sig_fields;\n",
  chars! "  u16 sig_len;\n",
  chars! "  u8 sig[sig_len];\n",
  chars! "};\n",
  chars! "\n",
  chars! "/* INTRO_ESTABLISHED payload which is an acknowledge of the ESTABLISH_INTRO\n",
  chars! " * cell. For legacy node, this payload is empty so the following only applies\n",
  chars! " * to version >= 3. */\n",
  chars! "struct trn_cell_intro_established {\n",
  chars! "  /* Extension(s). Reserved fields. */\n",
  chars! "  struct trn_cell_extension extensions;\n",
  chars! "};\n"]

theorem tor_cell_establish_intro_tested : Yields "cell_establish_intro" camel [] [Peg.utf8 tor_cell_establish_introSrc, Peg.utf8 tor_cell_commonSrc] fun p ext nm fs => Decides p ext nm fs ∧ Passing p ext nm fs ∧ Covering p ext nm fs :=
  C72_covering (N := 400) (B := 2 ^ 16) (by decide +kernel)

theorem tor_cell_establish_intro_works : Yields "cell_establish_intro" camel [] [Peg.utf8 tor_cell_establish_introSrc, Peg.utf8 tor_cell_commonSrc] Decides := tor_cell_establish_intro_tested.mono fun h => h.1

/-- testdata/tor/cell_introduce1.trunnel. -/
def tor_cell_introduce1Src : List Char := List.flatten [
  chars! "/*\n",
  chars! " * This contains the definition of the INTRODUCE1 and INTRODUCE_ACK cell for\n",
  chars! " * onion service version 3 and onward. The following format is specified in\n",
  chars! " * proposal 224 section 3.2.\n",
  chars! " */\n",
  chars! "\n",
  chars! "/* From cell_common.trunnel. */\n",
  chars! "extern struct trn_cell_extension;\n",
  chars! "/* From ed25519_cert.trunnel. */\n",
  chars! "extern struct link_specifier;\n",
  chars! "\n",
  chars! "const TRUNNEL_SHA1_LEN = 20;\n",
  chars! "const TRUNNEL_REND_COOKIE_LEN = 20;\n",
  chars! "\n",
  chars! "/* INTRODUCE1 payload. See details in section 3.2.1. */\n",
  chars! "struct trn_cell_introduce1 {\n",
  chars! "  /* Always zeroed. MUST be checked explicitely by the caller. */\n",
  chars! "  u8 legacy_key_id[TRUNNEL_SHA1_LEN];\n",
  chars! "\n",
  chars! "  /* Authentication key material. */\n",
  chars! "  u8 auth_key_type IN [0x00, 0x01, 0x02];\n",
  chars! "  u16 auth_key_len;\n",
  chars! "  u8 auth_key[auth_key_len];\n",
  chars! "\n",
  chars! "  /* Extension(s). Reserved fields. */\n",
  chars! "  struct trn_cell_extension extensions;\n",
  chars! "\n",
  chars! "  /* Variable length, up to the end of cell. */\n",
  chars! "  u8 encrypted[];\n",
  chars! "};\n",
  chars! "\n",
  chars! "/* INTRODUCE_ACK payload. See details in section 3.2.2. */\n",
  chars! "struct trn_cell_introduce_ack {\n",
  chars! "  /* Status of introduction. */\n",
  chars! "  u16 status IN [0x0000, 0x0001, 0x0002];\n",
  chars! "\n",
  chars! "  /* Extension(s). Reserved fields. */\n",
  chars! "  struct trn_cell_extension extensions;\n",
  chars! "};\n",
  chars! "\n",
  chars! "/* Encrypted section of the INTRODUCE1/INTRODUCE2 cell. */\n",
  chars! "struct trn_cell_introduce_encrypted {\n",
  chars! "  /* Rendezvous cookie. */\n",
  chars! "  u8 rend_cookie[TRUNNEL_REND_COOKIE_LEN];\n",
  chars! "\n",
  chars! "  /* Extension(s). Reserved fields. */\n",
  chars! "  struct trn_cell_extension extensions;\n",
  chars! "\n",
  chars! "  /* Onion key material. */\n",
  chars! "  u8 onion_key_type IN [0x01];\n",
  chars! "  u16 onion_key_len;\n",
  chars! "  u8 onion_key[onion_key_len];\n",
  chars! "\n",
  chars! "  /* Link specifiers(s) */\n",
  chars! "  u8 nspec;\n",
  chars! "  struct link_specifier nspecs[nspec];\n",
  chars! "\n",
  chars! "  /* Optional padding. This might be empty or not. */\n",
  chars! "  u8 pad[];\n",
  chars! "};\n"]

theorem tor_cell_introduce1_works : Yields "cell_introduce1" camel [] [Peg.utf8 tor_cell_introduce1Src, Peg.utf8 tor_cell_commonSrc, Peg.utf8 tor_ed25519_certSrc] Decides :=
  C69_decides (N := 400) (by decide +kernel)

end Verif.Props
