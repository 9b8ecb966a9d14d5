import Verif.Props.TvFormats
/-!
# The trunnel files of testdata/trunnel
-/
namespace Verif.Props

/-- testdata/trunnel/contexts.trunnel. -/
def trunnel_contextsSrc : List Char := List.flatten [
  chars! "\n",
  chars! "struct point {\n",
  chars! "  u8 x IN [0..254];\n",
  chars! "  u8 y;\n",
  chars! "}\n",
  chars! "\n",
  chars! "/** This holds a boolean */\n",
  chars! "context flag {\n",
  chars! "  /** This can hold a 1 or a 0. */\n",
  chars! "  u8 flagval;\n",
  chars! "}\n",
  chars! "\n",
  chars! "context count {\n",
  chars! "  u8 countval;\n",
  chars! "}\n",
  chars! "\n",
  chars! "struct twosize with context flag {\n",
  chars! "  union u[flag.flagval] {\n",
  chars! "     0: u32 x IN [0..0x7fffffff];\n",
  chars! "     1,3: u16 y;\n",
  chars! "  };\n",
  chars! "}\n",
  chars! "\n",
  chars! "struct varsize with context count {\n",
  chars! "  u32 a;\n",
  chars! "  u8 msg[count.countval];\n",
  chars! "}\n",
  chars! "\n",
  chars! "struct varsize2 with context count {\n",
  chars! "  u32 a;\n",
  chars! "  struct point msg[count.countval];\n",
  chars! "}\n",
  chars! "\n",
  chars! "struct ccomplex with context flag, count {\n",
  chars! "  struct point p;\n",
  chars! "  struct twosize tsz;\n",
  chars! "  struct varsize vsz;\n",
  chars! "  union u[flag.flagval] with length count.countval {\n",
  chars! "     0: u8 a[];\n",
  chars! "     1: u16 b[];\n",
  chars! "  };\n",
  chars! "}\n"]

/-- testdata/trunnel/example.trunnel. -/
def trunnel_exampleSrc : List Char := List.flatten [
  chars! "const X = 20;\n",
  chars! "\n",
  chars! "struct name2 { u8 foo; }\n",
  chars! "struct name3 { u8 foo; }\n",
  chars! "struct name4 { u8 foo; }\n",
  chars! "struct xx { u8 foo; }\n",
  chars! "struct yy { u8 foo; struct xx zz; }\n",
  chars! "struct zz { struct yy zz; }\n",
  chars! "\n",
  chars! "const TYPE1 = 1;\n",
  chars! "const TYPE2 = 2;\n",
  chars! "const TYPE3 = 3;\n",
  chars! "\n",
  chars! "struct name {\n",
  chars! "   u8 thing1 IN [0..20];\n",
  chars! "   u16 thing2;\n",
  chars! "\n",
  chars! "\n",
  chars! "   u8 thing_x IN [TYPE1, TYPE2, TYPE3];\n",
  chars! "\n",
  chars! "   u8 thing3[20];\n",
  chars! "   u32 thing4[X];\n",
  chars! "\n",
  chars! "   struct name2 thing5;\n",
  chars! "\n",
  chars! "   struct name2 thing6[2];\n",
  chars! "\n",
  chars! "   nulterm thing7;\n",
  chars! "\n",
  chars! "   u8 count;\n",
  chars! "   struct name2 counted[count];\n",
  chars! "\n",
  chars! "   u8 count2;\n",
  chars! "   char string[count2];\n",
  chars! "   char buf[10];\n",
  chars! "\n",
  chars! "   u16 short_list1[20];\n",
  chars! "   u16 short_list2[count2];\n",
  chars! "\n",
  chars! "   u8 tag_field;\n",
  chars! "   union union_field[tag_field] {\n",
  chars! "      3 : struct name3 v1;\n",
  chars! "      4 : struct name4 v2;\n",
  chars! "      X : u32 number;\n",
  chars! "      5 : u8 stuff[10];\n",
  chars! "      6 : nulterm a_string;\n",
  chars! "      default : fail;\n",
  chars! "   };\n",
  chars! "\n",
  chars! "   eos;\n",
  chars! "}\n",
  chars! "\n",
  chars! "\n",
  chars! "struct namex {\n",
  chars! "    u8 tag;\n",
  chars! "    u8 length;\n",
  chars! "\n",
  chars! "    union fred[tag] with length length {\n",
  chars! "        4: struct xx field1;\n",
  chars! "        5: struct yy field2;\n",
  chars! "        default: ignore;\n",
  chars! "    };\n",
  chars! "\n",
  chars! "    union alice[tag] with length length {\n",
  chars! "        5: struct yy field3 ; ... ;\n",
  chars! "        default: u8 junk[];\n",
  chars! "    };\n",
  chars! "\n",
  chars! "}\n",
  chars! "\n",
  chars! "struct catch_more_cases {\n",
  chars! "   u64 bar;\n",
  chars! "   u64 baz[10];\n",
  chars! "   u8 len;\n",
  chars! "   u64 quux[len];\n",
  chars! "   u32 tag;\n",
  chars! "   union bob[tag] {\n",
  chars! "     1: u8 x;\n",
  chars! "     2: u16 y;\n",
  chars! "     3..10: u32 z;\n",
  chars! "     11: u64 foo;\n",
  chars! "   };\n",
  chars! "}\n",
  chars! "\n"]

/-- testdata/trunnel/example2.trunnel. -/
def trunnel_example2Src : List Char := List.flatten [
  chars! "\n",
  chars! "// Here's a structure full of non-compound objects.\n",
  chars! "struct simple_struct {\n",
  chars! "   nulterm string; // A nul-terminated string\n",
  chars! "   u8 a;           // A one-byte number\n",
  chars! "   u16 b;          // A two-byte number\n",
  chars! "   u32 c;          // A four-byte number\n",
  chars! "   u64 d;          // An eight-byte number\n",
  chars! "}\n",
  chars! "\n",
  chars! "/** You can put constraints on integers.\n",
  chars! " *\n",
  chars! " *  You can also put in doxygen comments before structures and fields to make\n",
  chars! " *  them documented. */\n",
  chars! "struct date {\n",
  chars! "   /** You can use a range for a constraint */\n",
  chars! "   u16 year IN [ 1970..65535 ];\n",
  chars! "   /** You can use a list too */\n",
  chars! "   u8 month IN [ 1, 2, 3, 4, 5, 6, 7, 8, 9, 10, 11, 12 ];\n",
  chars! "   /** You can combine lists and ranges, even though this is a little silly:\n",
  chars! "    * we could write this as 1..31 instead. */\n",
  chars! "   u8 day IN [ 1,2,3..31 ];\n",
  chars! "}\n",
  chars! "\n",
  chars! "// We can nest structures in structures\n",
  chars! "struct color { u8 r; u8 g; u8 b; }\n",
  chars! "struct gradiant {\n",
  chars! "   struct color c1;\n",
  chars! "   struct color c2;\n",
  chars! "}\n",
  chars! "\n",
  chars! "// This structure demonstrates fixed-width arrays.\n",
  chars! "struct fixie_demo {\n",
  chars! "   u8 byte[8];\n",
  chars! "   char letters[8];\n",
  chars! "   u16 shortwords[4];\n",
  chars! "   u32 words[2];\n",
  chars! "   u64 big_words[2];\n",
  chars! "\n",
  chars! "   struct color colors[2];\n",
  chars! "}\n",
  chars! "\n",
  chars! "// You can have the length of an array depend on a variable.\n",
  chars! "struct var_array_demo {\n",
  chars! "   u8 n_colors;\n",
  chars! "   struct color colors[n_colors];\n",
  chars! "\n",
  chars! "   u8 n_bytes;\n",
  chars! "   u8 bytes[n_bytes];\n",
  chars! "\n",
  chars! "   u8 n_letters;\n",
  chars! "   char letters[n_letters];\n",
  chars! "\n",
  chars! "   u8 n_shorts;\n",
  chars! "   u16 shorts[n_shorts];\n",
  chars! "\n",
  chars! "   u8 n_words;\n",
  chars! "   u32 words[n_words];\n",
  chars! "\n",
  chars! "   u32 n_bigwords;\n",
  chars! "   u64 bigwords[n_bigwords];\n",
  chars! "}\n",
  chars! "\n",
  chars! "// contants are fun\n",
  chars! "const T_COLOR = 1;\n",
  chars! "const T_DATE = 2;\n",
  chars! "const T_INTEGER = 3;\n",
  chars! "const T_INTARRAY = 4;\n",
  chars! "const T_VARARRAY = 5;\n",
  chars! "const T_STRING = 6;\n",
  chars! "\n",
  chars! "// We support tagged unions.  They can appear within a structure; not\n",
  chars! "// at toplevel.\n",
  chars! "struct simple_union_demo {\n",
  chars! "   u8 tag IN [ T_COLOR, T_DATE, T_INTEGER, T_INTARRAY, T_VARARRAY, T_STRING ];\n",
  chars! "   union value[tag] {\n",
  chars! "    T_COLOR : struct color c;\n",
  chars! "    T_DATE : struct date d;\n",
  chars! "    T_INTEGER : u32 num;\n",
  chars! "    T_INTARRAY : u8 eightbytes[8];\n",
  chars! "    T_STRING : nulterm string;\n",
  chars! "    // By default, this will fail.  So T_VARARRAY in invalid here.\n",
  chars! "    // You could make it fail explicitly by saying \"default: fail;\".\n",
  chars! "   };\n",
  chars! "}\n",
  chars! "\n",
  chars! "// Here are some union things we didn't do above.\n",
  chars! "struct union2 {\n",
  chars! "   u8 tag;\n",
  chars! "\n",
  chars! "   u8 len; // only variable arrays below look at this.\n",
  chars! "\n",
  chars! "   union u[tag] {\n",
  chars! "     0..1: u8 i8;\n",
  chars! "     2: u16 i16;\n",
  chars! "     3: u32 i32;\n",
  chars! "     4: u64 i64;\n",
  chars! "     5: u8 a8[3];\n",
  chars! "     6: u16 a16[3];\n",
  chars! "     7: u32 a32[3];\n",
  chars! "     8: u64 a64[3];\n",
  chars! "     9: struct color c;\n",
  chars! "     10,11,12: struct color ca[2];\n",
  chars! "\n",
  chars! "     14: u8 v8[len];\n",
  chars! "     15: u16 v16[len];\n",
  chars! "     16: u32 v32[len];\n",
  chars! "     17: u64 v64[len];\n",
  chars! "     18: struct color va2[len];\n",
  chars! "     20: char str2[len];\n",
  chars! "     21: char str[8];\n",
  chars! "\n",
  chars! "\n",
  chars! "   };\n",
  chars! "\n",
  chars! "}\n",
  chars! "\n",
  chars! "\n",
  chars! "struct union_with_len {\n",
  chars! "  u16 tag;\n",
  chars! "  u16 unionlen;\n",
  chars! "\n",
  chars! "  union u[tag] with length unionlen {\n",
  chars! "    1: struct color c;\n",
  chars! "    2: struct date d;\n",
  chars! "       ...; // ... means it's okay if unionlen > sizeof(date)\n",
  chars! "    default: u8 unparseable[];\n",
  chars! "    // We could also say \"default: ignore;\" to not retain the data.\n",
  chars! "  };\n",
  chars! "\n",
  chars! "  u16 right_after_the_union;\n",
  chars! "}\n",
  chars! "\n",
  chars! "\n",
  chars! "struct with_remainder {\n",
  chars! "\n",
  chars! "   u8 len;\n",
  chars! "   u8 bytes[len];\n",
  chars! "   /** This one holds any bytes left over at the end of the input. */\n",
  chars! "   u8 remainder[];\n",
  chars! "}\n"]

/-- testdata/trunnel/leftover.trunnel. -/
def trunnel_leftoverSrc : List Char := List.flatten [
  chars! "\n",
  chars! "\n",
  chars! "const EIGHT = 8;\n",
  chars! "\n",
  chars! "struct message {\n",
  chars! "   u8 message[..-4];\n",
  chars! "   nulterm stuff;\n",
  chars! "}\n",
  chars! "\n",
  chars! "struct message16 {\n",
  chars! "   u16 message[..-EIGHT];\n",
  chars! "   u8 stuff[EIGHT];\n",
  chars! "}\n",
  chars! "\n",
  chars! "/* unlo \"union with leftovers\" */\n",
  chars! "struct unlo {\n",
  chars! "   u8 tag;\n",
  chars! "   union u[tag] with length ..-8 {\n",
  chars! "     1: u8 x;\n",
  chars! "     2: u8 y[];\n",
  chars! "     //     3: u8 w[..-1]; u8 ww;\n",
  chars! "     4: u8 byte; u16 z[];\n",
  chars! "   };\n",
  chars! "   u8 leftoverlen;\n",
  chars! "   u8 leftovers[leftoverlen];\n",
  chars! "}\n"]

/-- testdata/trunnel/positions.trunnel. -/
def trunnel_positionsSrc : List Char := List.flatten [
  chars! "\n",
  chars! "struct haspos {\n",
  chars! "  nulterm s1;\n",
  chars! "  /** Position right after the first NUL. */\n",
  chars! "  @ptr pos1;\n",
  chars! "  nulterm s2;\n",
  chars! "  @ptr pos2;\n",
  chars! "  u32 x;\n",
  chars! "}\n",
  chars! "\n"]

/-- testdata/trunnel/prop220.trunnel. -/
def trunnel_prop220Src : List Char := List.flatten [
  chars! "// approximate implementation of cell formats from Tor proposal 220.\n",
  chars! "\n",
  chars! "struct tor_ed_cert {\n",
  chars! "  u8 version IN [1];\n",
  chars! "  u8 cert_type;\n",
  chars! "  u32 exp_field;\n",
  chars! "  u8 cert_key_type;\n",
  chars! "  u8 certified_key[32];\n",
  chars! "  u8 n_extensions;\n",
  chars! "  struct cert_extension ext[n_extensions];\n",
  chars! "  u8 signature[64];\n",
  chars! "}\n",
  chars! "\n",
  chars! "const CERTEXT_SIGNED_WITH_KEY = 4;\n",
  chars! "\n",
  chars! "struct cert_extension {\n",
  chars! "  u16 ext_length;\n",
  chars! "  u8 ext_type;\n",
  chars! "  u8 ext_flags;\n",
  chars! "  union un[ext_type] with length ext_length {\n",
  chars! "    CERTEXT_SIGNED_WITH_KEY : u8 signing_key[32];\n",
  chars! "    default: u8 unparsed[];\n",
  chars! "  };\n",
  chars! "}\n",
  chars! "\n",
  chars! "struct cert_revocation {\n",
  chars! "  u8 prefix[8];\n",
  chars! "  u8 version IN [1];\n",
  chars! "  u8 keytype;\n",
  chars! "  u8 identity_key[32];\n",
  chars! "  u8 revoked_key[32];\n",
  chars! "  u64 published;\n",
  chars! "  u8 n_extensions;\n",
  chars! "  struct cert_extension ext[n_extensions];\n",
  chars! "  u8 signature[64];\n",
  chars! "}\n",
  chars! "\n",
  chars! "struct crosscert_ed_rsa {\n",
  chars! "  u8 ed_key[32];\n",
  chars! "  u32 expiration_date;\n",
  chars! "  u8 signature[128];\n",
  chars! "}\n",
  chars! "\n",
  chars! "struct auth02_cell {\n",
  chars! "  u8 type[8];\n",
  chars! "  u8 cid[32];\n",
  chars! "  u8 sid[32];\n",
  chars! "  u8 cid_ed[32];\n",
  chars! "  u8 sid_ed[32];\n",
  chars! "  u8 slog[32];\n",
  chars! "  u8 clog[32];\n",
  chars! "  u8 scert[32];\n",
  chars! "  u8 tlssecrets[32];\n",
  chars! "  u8 rand[24];\n",
  chars! "  u8 sig[64];\n",
  chars! "}\n",
  chars! "\n",
  chars! "const LS_IPV4 = 0x00;\n",
  chars! "const LS_IPV6 = 0x01;\n",
  chars! "const LS_LEGACY_ID = 0x02;\n",
  chars! "const LS_ED25519_ID = 0x03;\n",
  chars! "\n",
  chars! "// amended from tor.trunnel\n",
  chars! "struct link_specifier {\n",
  chars! "  u8 ls_type;\n",
  chars! "  u8 ls_len;\n",
  chars! "  union un[ls_type] with length ls_len {\n",
  chars! "    LS_IPV4: u32 ipv4_addr; u16 ipv4_port;\n",
  chars! "    LS_IPV6: u8 ipv6_addr[16]; u16 ipv6_port;\n",
  chars! "    LS_LEGACY_ID: u8 legacy_id[20];\n",
  chars! "    LS_ED25519_ID: u8 ed25519_id[32];\n",
  chars! "    default: u8 unrecognized[];\n",
  chars! "  };\n",
  chars! "}\n"]

/-- testdata/trunnel/simple.trunnel. -/
def trunnel_simpleSrc : List Char := List.flatten [
  chars! "\n",
  chars! "const TWO = 2;\n",
  chars! "const THREE = 3;\n",
  chars! "/** The number four. */\n",
  chars! "const FOUR = 4;\n",
  chars! "const FIVE = 5;\n",
  chars! "\n",
  chars! "\n",
  chars! "struct restricted {\n",
  chars! "   /** A restricted number */\n",
  chars! "   u32 i1 IN [ 1 ];\n",
  chars! "   u32 i2 IN [ 1..2, 5, 10 ];\n",
  chars! "   u32 i3 IN [ 1..THREE ];\n",
  chars! "}\n",
  chars! "\n",
  chars! "/** Some numbers */\n",
  chars! "struct numbers {\n",
  chars! "   /** A number */\n",
  chars! "   u8 i8;\n",
  chars! "   u16 i16;\n",
  chars! "   u32 i32 IN [0..0xbadbeee, 0xbadbef0..0xffffffff];\n",
  chars! "   u64 i64;\n",
  chars! "}\n",
  chars! "\n",
  chars! "struct uses_eos {\n",
  chars! "  u16 a;\n",
  chars! "  u16 b;\n",
  chars! "  eos;\n",
  chars! "}\n",
  chars! "\n",
  chars! "struct extends {\n",
  chars! "   nulterm a;\n",
  chars! "   /** The rest of this thing. */\n",
  chars! "   u8 remainder[];\n",
  chars! "}\n",
  chars! "\n",
  chars! "struct extends2 {\n",
  chars! "   nulterm a;\n",
  chars! "   /** The rest of this thing. */\n",
  chars! "   char remainder[];\n",
  chars! "}\n",
  chars! "\n",
  chars! "struct extends3 {\n",
  chars! "   nulterm a;\n",
  chars! "   /** The rest of this thing. */\n",
  chars! "   u32 remainder[];\n",
  chars! "}\n"]

/-- testdata/trunnel/socks5.trunnel. -/
def trunnel_socks5Src : List Char := List.flatten [
  chars! "// Example: here's a quickie implementation of the messages in the\n",
  chars! "// socks5 protocol.\n",
  chars! "\n",
  chars! "struct socks5_client_version {\n",
  chars! "   u8 version IN [5];\n",
  chars! "   u8 n_methods;\n",
  chars! "   u8 methods[n_methods];\n",
  chars! "}\n",
  chars! "\n",
  chars! "struct socks5_server_method {\n",
  chars! "   u8 version IN [5];\n",
  chars! "   u8 method;\n",
  chars! "}\n",
  chars! "\n",
  chars! "const CMD_CONNECT = 1;\n",
  chars! "const CMD_BIND = 2;\n",
  chars! "const CMD_UDP_ASSOCIATE = 3;\n",
  chars! "// This is a tor extension\n",
  chars! "const CMD_RESOLVE_PTR = 0xF1;\n",
  chars! "\n",
  chars! "const ATYPE_IPV4 = 1;\n",
  chars! "const ATYPE_IPV6 = 4;\n",
  chars! "const ATYPE_DOMAINNAME = 3;\n",
  chars! "\n",
  chars! "struct domainname {\n",
  chars! "   u8 len;\n",
  chars! "   char name[len];\n",
  chars! "}\n",
  chars! "\n",
  chars! "struct socks5_client_request {\n",
  chars! "   u8 version IN [5];\n",
  chars! "   u8 command IN [CMD_CONNECT, CMD_BIND, CMD_UDP_ASSOCIATE, CMD_RESOLVE_PTR];\n",
  chars! "   u8 reserved IN [0];\n",
  chars! "   u8 atype;\n",
  chars! "   union dest_addr[atype] {\n",
  chars! "     ATYPE_IPV4: u32 ipv4;\n",
  chars! "     ATYPE_IPV6: u8 ipv6[16];\n",
  chars! "     ATYPE_DOMAINNAME: struct domainname domainname;\n",
  chars! "     default: fail;\n",
  chars! "   };\n",
  chars! "   u16 dest_port;\n",
  chars! "}\n",
  chars! "\n",
  chars! "struct socks5_server_reply {\n",
  chars! "   u8 version IN [5];\n",
  chars! "   u8 reply;\n",
  chars! "   u8 reserved IN [0];\n",
  chars! "   u8 atype;\n",
  chars! "   union bind_addr[atype] {\n",
  chars! "     ATYPE_IPV4: u32 ipv4;\n",
  chars! "     ATYPE_IPV6: u8 ipv6[16];\n",
  chars! "     ATYPE_DOMAINNAME: struct domainname domainname;\n",
  chars! "     default: fail;\n",
  chars! "   };\n",
  chars! "   u16 bind_port;\n",
  chars! "}\n",
  chars! "\n",
  chars! "struct socks5_client_userpass_auth {\n",
  chars! "   u8 version IN [1];\n",
  chars! "   u8 username_len;\n",
  chars! "   char username[username_len];\n",
  chars! "   u8 passwd_len;\n",
  chars! "   char passwd[passwd_len];\n",
  chars! "}\n",
  chars! "\n",
  chars! "struct socks5_server_userpath_auth {\n",
  chars! "   u8 version IN [1];\n",
  chars! "   u8 status;\n",
  chars! "}\n",
  chars! "\n",
  chars! "// Oh why not.  Here's socks4 and socks4a.\n",
  chars! "\n",
  chars! "struct socks4_client_request {\n",
  chars! "   u8 version IN [4];\n",
  chars! "   u8 command IN [CMD_CONNECT,CMD_BIND,CMD_RESOLVE_PTR];\n",
  chars! "   u16 port;\n",
  chars! "   u32 addr;\n",
  chars! "   nulterm username;\n",
  chars! "   union socks4a_addr[addr] {\n",
  chars! "      1..255:\n",
  chars! "               nulterm hostname;\n",
  chars! "      default:\n",
  chars! "               ;\n",
  chars! "   };\n",
  chars! "}\n",
  chars! "\n",
  chars! "struct socks4_server_reply {\n",
  chars! "   u8 version IN [4];\n",
  chars! "   u8 status;\n",
  chars! "   u16 port;\n",
  chars! "   u32 addr;\n",
  chars! "}\n",
  chars! "\n",
  chars! "// And here's the extended stuff from proposal 229\n",
  chars! "\n",
  chars! "struct tor_socksauth_keyval {\n",
  chars! "  u16 keylen;\n",
  chars! "  char key[keylen];\n",
  chars! "  u16 vallen;\n",
  chars! "  char val[vallen];\n",
  chars! "}\n",
  chars! "\n",
  chars! "struct tor_extended_socks_auth_request {\n",
  chars! "  u8 version IN [1];\n",
  chars! "  u16 npairs;\n",
  chars! "  struct tor_socksauth_keyval pairs[npairs];\n",
  chars! "}\n",
  chars! "\n",
  chars! "struct tor_extended_socks_auth_response {\n",
  chars! "  u8 version IN [1];\n",
  chars! "  u8 status;\n",
  chars! "  u16 npairs;\n",
  chars! "  struct tor_socksauth_keyval pairs[npairs];\n",
  chars! "}\n",
  chars! "\n"]

/-- testdata/trunnel/tor-rend.trunnel. -/
def trunnel_tor_rendSrc : List Char := List.flatten [
  chars! "\n",
  chars! "\n",
  chars! "struct establish_intro_body {\n",
  chars! "    u16 key_len;\n",
  chars! "    u8 key[key_len];\n",
  chars! "    u8 session_hash[20];\n",
  chars! "    u8 sig[];\n",
  chars! "}\n",
  chars! "\n",
  chars! "struct introduce1_cell {\n",
  chars! "    u8 pk_id;\n",
  chars! "    u8 encrypted_part[];\n",
  chars! "}\n",
  chars! "\n",
  chars! "struct introduce1_cell_plaintext {\n",
  chars! "    u8 byte0;\n",
  chars! "    union un[byte0] {\n",
  chars! "        default: struct v0_intro_body v0;\n",
  chars! "        1: struct v1_intro_body v1;\n",
  chars! "        2: struct v2_intro_body v2;\n",
  chars! "        3: struct v3_intro_body v3;\n",
  chars! "        4..32: fail;\n",
  chars! "    };\n",
  chars! "}\n",
  chars! "\n",
  chars! "struct v0_intro_body {\n",
  chars! "   u8 rest_of_nickname[19];\n",
  chars! "   u8 rc[20];\n",
  chars! "   u8 dh_data[128];\n",
  chars! "}\n",
  chars! "\n",
  chars! "struct v1_intro_body {\n",
  chars! "   u8 rp_id[42];\n",
  chars! "   u8 rc[20];\n",
  chars! "   u8 dh_data[128];\n",
  chars! "}\n",
  chars! "\n",
  chars! "struct v2_intro_body {\n",
  chars! "   u32 rp_ip;\n",
  chars! "   u16 rp_port;\n",
  chars! "   u8 rp_id[20];\n",
  chars! "   u16 klen;\n",
  chars! "   u8 onion_key[klen];\n",
  chars! "   u8 rc[20];\n",
  chars! "   u8 dh_data[128];\n",
  chars! "}\n",
  chars! "\n",
  chars! "struct v3_intro_body {\n",
  chars! "   u8 auth_type;\n",
  chars! "   union auth[auth_type] {\n",
  chars! "     0 : ;\n",
  chars! "     default : u16 auth_len;\n",
  chars! "               u8 auth_data[auth_len];\n",
  chars! "   };\n",
  chars! "   u32 timestamp;\n",
  chars! "   u32 rp_ip;\n",
  chars! "   u16 rp_port;\n",
  chars! "   u8 rp_id[20];\n",
  chars! "   u16 klen;\n",
  chars! "   u8 onion_key[klen];\n",
  chars! "   u8 rc[20];\n",
  chars! "   u8 dh_data[128];\n",
  chars! "}\n",
  chars! "\n",
  chars! "struct rendezvous1_cell_body {\n",
  chars! "   u8 rc[20];\n",
  chars! "   u8 dh[128];\n",
  chars! "   u8 kh[20];\n",
  chars! "}\n",
  chars! "\n",
  chars! "struct rendezvous2_cell_body {\n",
  chars! "   u8 dh[128];\n",
  chars! "   u8 kh[20];\n",
  chars! "}\n",
  chars! "\n",
  chars! "\n",
  chars! "\n"]

/-- testdata/trunnel/derived.trunnel. -/
def trunnel_derivedSrc : List Char := List.flatten [
  chars! "\n",
  chars! "const TWO = 2;\n",
  chars! "const THREE = 3;\n",
  chars! "/** The number four. */\n",
  chars! "const FOUR = 4;\n",
  chars! "const FIVE = 5;\n",
  chars! "\n",
  chars! "extern struct restricted;\n",
  chars! "extern struct numbers;\n",
  chars! "\n",
  chars! "trunnel options opaque;\n",
  chars! "\n",
  chars! "struct nested {\n",
  chars! "   /** A structure in a structure */\n",
  chars! "   struct numbers num1;\n",
  chars! "   struct numbers num2;\n",
  chars! "   struct strings {\n",
  chars! "      /** A fixed array of char */\n",
  chars! "      char f[10];\n",
  chars! "      /** A nul-terminated string */\n",
  chars! "      nulterm nt;\n",
  chars! "   } strs;\n",
  chars! "   struct restricted res;\n",
  chars! "};\n",
  chars! "\n",
  chars! "/** A structure full of fixed-lenth arrays. */\n",
  chars! "struct fixed {\n",
  chars! "   /** A fixed array */\n",
  chars! "   u8  a8[4];\n",
  chars! "   u16 a16[6];\n",
  chars! "   u32 a32[THREE];\n",
  chars! "   u64 a64[1];\n",
  chars! "\n",
  chars! "   struct numbers nums[TWO];\n",
  chars! "}\n",
  chars! "\n",
  chars! "struct varlen {\n",
  chars! "   u8 len1;\n",
  chars! "   u16 len2;\n",
  chars! "   u32 len3;\n",
  chars! "   u64 len4;\n",
  chars! "\n",
  chars! "   /** A variable-length string */\n",
  chars! "   char str[len1];\n",
  chars! "\n",
  chars! "   /** A variable-length array */\n",
  chars! "   u8 a8[len1];\n",
  chars! "   u16 a16[len2];\n",
  chars! "   u32 a32[len3];\n",
  chars! "   u64 a64[len4];\n",
  chars! "\n",
  chars! "   struct numbers nums[len2];\n",
  chars! "}\n",
  chars! "\n",
  chars! "struct union1 {\n",
  chars! "   u8 tag;\n",
  chars! "   /** A union. */\n",
  chars! "   union un[tag] {\n",
  chars! "     TWO: u8 a;\n",
  chars! "     3 .. 4: u16 b;\n",
  chars! "             u64 b2;\n",
  chars! "     FIVE: u8 c[16];\n",
  chars! "     6: nulterm d;\n",
  chars! "     7: struct numbers e;\n",
  chars! "     8: ;\n",
  chars! "     9 : u8 x;\n",
  chars! "         u8 xs[x];\n",
  chars! "   };\n",
  chars! "\n",
  chars! "}\n",
  chars! "\n",
  chars! "struct union2 {\n",
  chars! "   u8 tag;\n",
  chars! "   u16 length;\n",
  chars! "   /** A union with a length */\n",
  chars! "   union un[tag] with length length {\n",
  chars! "     TWO: u8 a;\n",
  chars! "     THREE: u16 b;\n",
  chars! "            ...;\n",
  chars! "     FOUR, 0x05:\n",
  chars! "           // A comment to get ignored.\n",
  chars! "           u8 c[16];\n",
  chars! "\t   /*\n",
  chars! "\t      Another comment to ignore.\n",
  chars! "\t    */\n",
  chars! "           u8 remainder[];\n",
  chars! "     8 : ;\n",
  chars! "     9 : u8 x;\n",
  chars! "         u8 xs[x];\n",
  chars! "     default: fail;\n",
  chars! "   };\n",
  chars! "\n",
  chars! "   nulterm more;\n",
  chars! "}\n",
  chars! "\n",
  chars! "struct union3 {\n",
  chars! "   u16 tag;\n",
  chars! "   u16 length;\n",
  chars! "   union un[tag] with length length {\n",
  chars! "     TWO: u8 a;\n",
  chars! "     default: u8 stuff[];\n",
  chars! "   };\n",
  chars! "}\n",
  chars! "\n",
  chars! "struct union4 {\n",
  chars! "   u16 tag;\n",
  chars! "   u16 length;\n",
  chars! "   union un[tag] with length length {\n",
  chars! "     TWO: u8 a;\n",
  chars! "     default: ignore;\n",
  chars! "   };\n",
  chars! "}\n"]

/-- testdata/trunnel/opaque.trunnel. -/
def trunnel_opaqueSrc : List Char := List.flatten [
  chars! "\n",
  chars! "trunnel options very_opaque;\n",
  chars! "\n",
  chars! "extern struct numbers;\n",
  chars! "\n",
  chars! "struct extends4 {\n",
  chars! "   nulterm a;\n",
  chars! "   /** The rest of this thing. */\n",
  chars! "   struct numbers remainder[];\n",
  chars! "}\n"]

/-- testdata/trunnel/prop224.trunnel. -/
def trunnel_prop224Src : List Char := List.flatten [
  chars! "// approximate implementation of cell formats from Tor proposal 224.\n",
  chars! "\n",
  chars! "// From tor-spec.txt as amended by prop220\n",
  chars! "extern struct link_specifier;\n",
  chars! "\n",
  chars! "struct establish_intro_cell_extension {\n",
  chars! "   u8 type;\n",
  chars! "   u8 len;\n",
  chars! "   union un[type] with length len {\n",
  chars! "     default: u8 unrecognized[];\n",
  chars! "   };\n",
  chars! "}\n",
  chars! "\n",
  chars! "struct establish_intro_cell {\n",
  chars! "  u8 auth_key_type IN [2..254];\n",
  chars! "  u8 auth_key_len;\n",
  chars! "  u8 auth_key[auth_key_len];\n",
  chars! "  u8 n_extensions;\n",
  chars! "  struct establish_intro_cell_extension exts[n_extensions];\n",
  chars! "  u8 handshake_auth[32];\n",
  chars! "  u8 siglen;\n",
  chars! "  u8 signature[siglen];\n",
  chars! "}\n",
  chars! "\n",
  chars! "struct old_establish_intro_cell {\n",
  chars! "  u16 key_length IN [ 0..511 ] ;\n",
  chars! "  u8 key[key_length];\n",
  chars! "  u8 handshake_auth[20];\n",
  chars! "  u8 sig[];\n",
  chars! "}\n",
  chars! "\n",
  chars! "struct maint_establish_intro_cell {\n",
  chars! "  u8 prefix IN [0xFF];\n",
  chars! "  struct maint_cell_command cmds[];\n",
  chars! "}\n",
  chars! "\n",
  chars! "const UPDATE_KEYS = 0x0001;\n",
  chars! "\n",
  chars! "struct maint_cell_command {\n",
  chars! "  u16 type;\n",
  chars! "  u16 len;\n",
  chars! "  union un[type] with length len {\n",
  chars! "    UPDATE_KEYS: struct update_keys_command update_cmd;\n",
  chars! "    default: u8 unrecognized[];\n",
  chars! "  };\n",
  chars! "}\n",
  chars! "\n",
  chars! "struct update_keys_command {\n",
  chars! "   u8 numkeys;\n",
  chars! "   struct key_update update[numkeys];\n",
  chars! "   u32 counter;\n",
  chars! "   u8 siglen;\n",
  chars! "   u8 signature[siglen];\n",
  chars! "}\n",
  chars! "\n",
  chars! "struct key_update {\n",
  chars! "   u8 keytype;\n",
  chars! "   u8 keylen;\n",
  chars! "   union key[keytype] with length keylen {\n",
  chars! "     1: u8 curve25519_key[32];\n",
  chars! "     default: u8 unrecognized[];\n",
  chars! "   };\n",
  chars! "}\n",
  chars! "\n",
  chars! "struct introduce1_cell {\n",
  chars! "  u8 auth_keyid[32];\n",
  chars! "  u8 enc_keyid[8];\n",
  chars! "  u8 n_extensions;\n",
  chars! "  struct intro_cell_extension exts[n_extensions];\n",
  chars! "  u8 encrypted[];\n",
  chars! "}\n",
  chars! "\n",
  chars! "struct intro_cell_extension {\n",
  chars! "  u8 type;\n",
  chars! "  u8 len;\n",
  chars! "  union un[type] with length len {\n",
  chars! "    default: u8 unrecognized[];\n",
  chars! "  };\n",
  chars! "}\n",
  chars! "\n",
  chars! "struct introduce_ack_cell {\n",
  chars! "  u16 status;\n",
  chars! "  // not counted originally\n",
  chars! "  u8 n_extensions;\n",
  chars! "  struct intro_ack_cell_extension exts[n_extensions];\n",
  chars! "}\n",
  chars! "struct intro_ack_cell_extension {\n",
  chars! "  u8 type;\n",
  chars! "  u8 len;\n",
  chars! "  union un[type] with length len {\n",
  chars! "    default: u8 unrecognized[];\n",
  chars! "  };\n",
  chars! "}\n",
  chars! "\n",
  chars! "struct encrypted_intro_cell {\n",
  chars! "  u8 rend_cookie[20];\n",
  chars! "  u8 n_exts;\n",
  chars! "  struct intro_cell_extension exts[n_exts];\n",
  chars! "  u8 onion_key_type;\n",
  chars! "  union onion_key[onion_key_type] {\n",
  chars! "    1: u8 tap_key[128];\n",
  chars! "    2: u8 ntor_key[32];\n",
  chars! "    default: fail;\n",
  chars! "  };\n",
  chars! "  u8 nspec;\n",
  chars! "  struct link_specifier lspecs[nspec];\n",
  chars! "  u8 pad[];\n",
  chars! "}\n"]

end Verif.Props
