{
 "claims": [
  {
   "property": "C01",
   "status": "proved",
   "theorems": [
    "Verif.Props.C01_newSet_contains"
   ],
   "note": ""
  },
  {
   "property": "C02",
   "status": "proved",
   "theorems": [
    "Verif.Props.C02_simplify_canonical",
    "Verif.Props.C02_simplify_canonical_fix",
    "Verif.Props.C02_simplify_idempotent",
    "Verif.Props.C02_simplify_order",
    "Verif.Props.C02_simplify_not_minimal"
   ],
   "note": ""
  },
  {
   "property": "C03",
   "status": "proved",
   "theorems": [
    "Verif.Props.C03_overlaps_iff"
   ],
   "note": ""
  },
  {
   "property": "C04",
   "status": "partial",
   "theorems": [
    "Verif.Props.C04_subtract_partial",
    "Verif.Props.C04_subtract_exact",
    "Verif.Props.C04_subtract_empty_wrong"
   ],
   "note": "False for an empty subtrahend (witness); proved for all others. C04_subtract_exact describes the result in all cases."
  },
  {
   "property": "C05",
   "status": "proved",
   "theorems": [
    "Verif.Props.C05_intType"
   ],
   "note": ""
  },
  {
   "property": "C06",
   "status": "proved",
   "theorems": [
    "Verif.Props.C06_random_mem"
   ],
   "note": ""
  },
  {
   "property": "C07",
   "status": "proved",
   "theorems": [
    "Verif.Props.C07_random_bijection",
    "Verif.Props.C07_draw_uniform",
    "Verif.Props.C07_word_of_draws"
   ],
   "note": ""
  },
  {
   "property": "C08",
   "status": "partial",
   "theorems": [
    "Verif.Props.C08_random_terminates_partial",
    "Verif.Props.C08_acceptance",
    "Verif.Props.C08_random_full_hangs"
   ],
   "note": "False for the full 64-bit set (proved to loop forever)."
  },
  {
   "property": "C09",
   "status": "proved",
   "theorems": [
    "Verif.Props.C09_lookup",
    "Verif.Props.C09_duplicate"
   ],
   "note": ""
  },
  {
   "property": "C10",
   "status": "proved",
   "theorems": [
    "Verif.Props.C10_map_order_independent"
   ],
   "note": ""
  },
  {
   "property": "C11",
   "status": "proved",
   "theorems": [
    "Verif.Props.C11_multi_file",
    "Verif.Props.C11_order_matters"
   ],
   "note": ""
  },
  {
   "property": "C12",
   "status": "proved",
   "theorems": [
    "Verif.Props.C12_integer",
    "Verif.Props.C12_integer_file"
   ],
   "note": ""
  },
  {
   "property": "C13",
   "status": "proved",
   "theorems": [
    "Verif.Props.C13_intervals",
    "Verif.Props.C13_intervals_panic"
   ],
   "note": "A reversed range panics rather than being reported; the exact condition is proved."
  },
  {
   "property": "C14",
   "status": "proved",
   "theorems": [
    "Verif.Props.C14_intType",
    "Verif.Props.C14_intType_noContext"
   ],
   "note": ""
  },
  {
   "property": "C15",
   "status": "proved",
   "theorems": [
    "Verif.Props.C15_lookup"
   ],
   "note": ""
  },
  {
   "property": "C16",
   "status": "proved",
   "theorems": [
    "Verif.Props.C16_default"
   ],
   "note": ""
  },
  {
   "property": "C17",
   "status": "proved",
   "theorems": [
    "Verif.Props.parse_sound",
    "Verif.Props.parse_unsound_forward"
   ],
   "note": "For forward references soundness fails (witness)."
  },
  {
   "property": "C18",
   "status": "proved",
   "theorems": [
    "Verif.Props.parse_complete"
   ],
   "note": ""
  },
  {
   "property": "C19",
   "status": "proved",
   "theorems": [
    "Verif.Props.parse_suffix",
    "Verif.Props.parse_hidden"
   ],
   "note": ""
  },
  {
   "property": "C20",
   "status": "partial",
   "theorems": [
    "Verif.Props.parse_no_panic_partial",
    "Verif.Props.parse_panics_only",
    "Verif.Props.parse_panics_number",
    "Verif.Props.parse_short_no_panic",
    "Verif.Props.parse_panics_wide",
    "Verif.Props.parse_panics_wide_union"
   ],
   "note": "False when a 64-bit field is used as a length (witnesses); proved for all formats whose length fields have at most 32 bits. For all formats a panic needs eight consecutive bytes of the input to hold a number larger than the largest slice: parse_panics_number."
  },
  {
   "property": "C21",
   "status": "proved",
   "theorems": [
    "Verif.Props.parse_ends",
    "Verif.Props.parse_ends_static",
    "Verif.Props.parse_total",
    "Verif.Props.parse_hangs_empty_element",
    "Verif.Props.parse_hangs_self"
   ],
   "note": ""
  },
  {
   "property": "C32",
   "status": "proved",
   "theorems": [
    "Verif.Props.ctor_wraps"
   ],
   "note": ""
  },
  {
   "property": "C55",
   "status": "proved",
   "theorems": [
    "Verif.Props.enc_unique"
   ],
   "note": ""
  },
  {
   "property": "C22",
   "status": "proved",
   "theorems": [
    "Verif.Props.int_field",
    "Verif.Props.int_outcome"
   ],
   "note": ""
  },
  {
   "property": "C23",
   "status": "proved",
   "theorems": [
    "Verif.Props.int_field",
    "Verif.Props.int_outcome"
   ],
   "note": ""
  },
  {
   "property": "C24",
   "status": "proved",
   "theorems": [
    "Verif.Props.fixed_array_length",
    "Verif.Props.counted_array_length",
    "Verif.Props.end_array_consumes",
    "Verif.Props.leftover_array_consumes"
   ],
   "note": ""
  },
  {
   "property": "C25",
   "status": "proved",
   "theorems": [
    "Verif.Props.nulterm_field",
    "Verif.Props.nulterm_outcome"
   ],
   "note": ""
  },
  {
   "property": "C26",
   "status": "proved",
   "theorems": [
    "Verif.Props.union_selected",
    "Verif.Props.union_no_default_accepts"
   ],
   "note": "The manual's implied 'default: fail' does not hold (witness)."
  },
  {
   "property": "C27",
   "status": "proved",
   "theorems": [
    "Verif.Props.union_window",
    "Verif.Props.union_window_outcome"
   ],
   "note": ""
  },
  {
   "property": "C28",
   "status": "proved",
   "theorems": [
    "Verif.Props.eos_outcome"
   ],
   "note": ""
  },
  {
   "property": "C29",
   "status": "proved",
   "theorems": [
    "Verif.Props.ptr_offset",
    "Verif.Props.ptr_in_window_wrong"
   ],
   "note": "Inside a length-limited union the recorded number is not the offset (witness)."
  },
  {
   "property": "C30",
   "status": "proved",
   "theorems": [
    "Verif.Props.parse_extend",
    "Verif.Props.parse_cut"
   ],
   "note": ""
  },
  {
   "property": "C31",
   "status": "proved",
   "theorems": [
    "Verif.Props.parse_truncated",
    "Verif.Props.parse_truncated_error",
    "Verif.Props.encodings_prefix_free"
   ],
   "note": ""
  },
  {
   "property": "C33",
   "status": "proved",
   "theorems": [
    "Verif.Props.nested_field",
    "Verif.Props.nested_continues",
    "Verif.Props.nested_outcome"
   ],
   "note": ""
  },
  {
   "property": "C34",
   "status": "proved",
   "theorems": [
    "Verif.Props.parse_used",
    "Verif.Props.used_stale",
    "Verif.Props.used_forward"
   ],
   "note": ""
  },
  {
   "property": "C35",
   "status": "proved",
   "theorems": [
    "Verif.Props.marshallers_conflict",
    "Verif.Props.marshallers_outcome",
    "Verif.Props.marshallers_emits"
   ],
   "note": "Stated for the abstract syntax the grammar can produce (ParserShape)."
  },
  {
   "property": "C36",
   "status": "proved",
   "theorems": [
    "Verif.Props.emitted_compiles",
    "Verif.Props.receiver_hidden",
    "Verif.Props.receiver_blank",
    "Verif.Props.constraint_overflows",
    "Verif.Props.defaults_repeat",
    "Verif.Props.field_is_method",
    "Verif.Props.constructor_is_type",
    "Verif.Props.context_is_keyword",
    "Verif.Props.field_repeats",
    "Verif.Props.length_not_number",
    "Verif.Props.context_missing",
    "Verif.Props.emitted_needs",
    "Verif.Props.emitted_needs_members",
    "Verif.Props.receiver_as_context"
   ],
   "note": "Under a condition on the source (CompileOK); emitted_needs and emitted_needs_members are the converse for all sources (CompileOK asks a little more: names of types also differ from variables of the emitted code). receiver_as_context: a reference to an undeclared context that is the letter of the receiver compiles. The other theorems are accepted sources that do not compile. Unused variables are checked, unused imports are not."
  },
  {
   "property": "C37",
   "status": "proved",
   "theorems": [
    "Verif.Props.C37_store",
    "Verif.Props.C37_store_new"
   ],
   "note": ""
  },
  {
   "property": "C38",
   "status": "proved",
   "theorems": [
    "Verif.Props.C38_clone",
    "Verif.Props.C38_merge",
    "Verif.Props.C38_update",
    "Verif.Props.C38_independent"
   ],
   "note": ""
  },
  {
   "property": "C39",
   "status": "proved",
   "theorems": [
    "Verif.Props.C39_intbytes",
    "Verif.Props.C39_inverse"
   ],
   "note": ""
  },
  {
   "property": "C40",
   "status": "partial",
   "theorems": [
    "Verif.Props.C40_encodings_partial",
    "Verif.Props.C40_accepted_partial",
    "Verif.Props.C40_usable_partial",
    "Verif.Props.C40_struct_in_case",
    "Verif.Props.C40_struct_between",
    "Verif.Props.C40_constrained_tag",
    "Verif.Props.C40_constrained_length",
    "Verif.Props.C40_long_union",
    "Verif.Props.C40_wide_value",
    "Verif.Props.C40_overlap",
    "Verif.Props.C40_rest_not_last",
    "Verif.Props.C40_shared"
   ],
   "note": "Proved for every format of the class FmtGen (Verif/TvClass.lean; sound checker in Verif/TvCheck.lean), all random sources, growth policies and selectors, vectors shorter than the class's bound. Outside the class the statement is false: nine formats accepted by the generators with a vector that the generated parser does not accept."
  },
  {
   "property": "C41",
   "status": "partial",
   "theorems": [
    "Verif.Props.C41_covered_partial",
    "Verif.Props.C41_parsed_partial",
    "Verif.Props.C41_tag_as_length",
    "Verif.Props.C41_shared_tag"
   ],
   "note": "Proved for every format of the classes FmtGen (Verif/TvClass.lean) and FmtCov (Verif/TvCover.lean), all random sources, all growth policies of slices and every selector that keeps all vectors: each selectable case without fail has a vector which, if shorter than the bound of the class, is parsed to a record for which the tag, a field or a context variable, is in the case. Outside the class the statement is false for a tag that is also the length of a later array (C41_tag_as_length) and for a tag shared with a later union (C41_shared_tag)."
  },
  {
   "property": "C42",
   "status": "proved",
   "theorems": [
    "Verif.Props.C42_deterministic"
   ],
   "note": "Also for every selector given as a function of the call number and vectors."
  },
  {
   "property": "C43",
   "status": "proved",
   "theorems": [
    "Verif.Props.C43_sample"
   ],
   "note": ""
  },
  {
   "property": "C44",
   "status": "proved",
   "theorems": [
    "Verif.Props.C44_plan",
    "Verif.Props.C44_marshallers_first",
    "Verif.Props.C44_stops",
    "Verif.Props.C44_not_implemented",
    "Verif.Props.C44_generation_fails"
   ],
   "note": ""
  },
  {
   "property": "C45",
   "status": "proved",
   "theorems": [
    "Verif.Props.C45_corpus_written",
    "Verif.Props.C45_no_other_path",
    "Verif.Props.C45_idempotent"
   ],
   "note": ""
  },
  {
   "property": "C46",
   "status": "proved",
   "theorems": [
    "Verif.Props.C46_emitted",
    "Verif.Props.C46_count"
   ],
   "note": ""
  },
  {
   "property": "C47",
   "status": "proved",
   "theorems": [
    "Verif.Props.C47_lookup",
    "Verif.Props.C47_add"
   ],
   "note": ""
  },
  {
   "property": "C54",
   "status": "proved",
   "theorems": [
    "Verif.Props.C54_files",
    "Verif.Props.C54_build_all_or_nothing",
    "Verif.Props.C54_build_runs"
   ],
   "note": ""
  },
  {
   "property": "C49",
   "status": "proved",
   "theorems": [
    "Verif.Props.C49_decided",
    "Verif.Props.C49_deterministic"
   ],
   "note": ""
  },
  {
   "property": "C48",
   "status": "proved",
   "theorems": [
    "Verif.Props.C48_value",
    "Verif.Props.C48_reject",
    "Verif.Props.C48_decimal_large",
    "Verif.Props.C48_hex_large",
    "Verif.Props.C48_octal_large",
    "Verif.Props.C48_octal_digit"
   ],
   "note": "Values of literals at any place in a file are part of C56."
  },
  {
   "property": "C50",
   "status": "proved",
   "theorems": [
    "Verif.Props.C50_print_parse",
    "Verif.Props.C50_reparse"
   ],
   "note": ""
  },
  {
   "property": "C51",
   "status": "proved",
   "theorems": [
    "Verif.Props.C51_layout",
    "Verif.Props.C51_replace",
    "Verif.Props.C51_leading"
   ],
   "note": ""
  },
  {
   "property": "C52",
   "status": "proved",
   "theorems": [
    "Verif.Props.C52_rules",
    "Verif.Props.C52_exact",
    "Verif.Props.C52_end_last",
    "Verif.Props.C52_fail_alone"
   ],
   "note": "That unions do not nest is built into the type of the syntax tree (Verif/Ast); the Go type of members would allow it, the model of the parser has no way to build it."
  },
  {
   "property": "C53",
   "status": "proved",
   "theorems": [
    "Verif.Props.C53_once",
    "Verif.Props.C53_reference"
   ],
   "note": ""
  },
  {
   "property": "C56",
   "status": "proved",
   "theorems": [
    "Verif.Props.C56_language",
    "Verif.Props.C56_unambiguous"
   ],
   "note": ""
  },
  {
   "property": "C57",
   "status": "partial",
   "theorems": [
    "Verif.Props.C57_tests_pass_partial",
    "Verif.Props.C57_missing_argument",
    "Verif.Props.C57_fuzz"
   ],
   "note": "Tests pass for formats of the class FmtGen, all random sources, growth policies and selectors, cases shorter than the bound of the class. For a struct whose contexts are declared but not used the emitted test does not compile (C57_missing_argument). The claim about fuzzing functions is proved for all well-formed formats whose references go back."
  },
  {
   "property": "C58",
   "status": "proved",
   "theorems": [
    "Verif.Props.C58_suites"
   ],
   "note": ""
  },
  {
   "property": "C59",
   "status": "proved",
   "theorems": [
    "Verif.Props.C59_text_reads",
    "Verif.Props.keyword_unreadable"
   ],
   "note": "Read by Verif/GoRead, a reader of a Go subset written from the language specification. Names: those printed become Go identifiers under the naming function, context names are not keywords; keyword_unreadable shows the second condition is needed. All golden gen-marshallers.go files of gen/tests and examples read as the model's programs (Props/GoldenCases); imports.Process is not modelled."
  },
  {
   "property": "C60",
   "status": "proved",
   "theorems": [
    "Verif.Props.C60_never_fails",
    "Verif.Props.C60_succeeds",
    "Verif.Props.C60_corpus",
    "Verif.Props.C60_leftover",
    "Verif.Props.C60_leftover_union",
    "Verif.Props.C60_extern",
    "Verif.Props.C60_empty_default",
    "Verif.Props.C60_overlap",
    "Verif.Props.C60_reversed",
    "Verif.Props.C60_context_array",
    "Verif.Props.C60_char_tag",
    "Verif.Props.C60_full_default"
   ],
   "note": "FmtRuns has conditions on the source only. For each condition there is a well-formed format that violates it and on which the generator fails, except that structs that are array elements must not be empty (not needed, but empty structs clear their parent's constraints). Ending of draws is a hypothesis (Answers), as internal/intervals/intervals.go redraws without bound; zeroEnv_answers meets it."
  },
  {
   "property": "C61",
   "status": "proved",
   "theorems": [
    "Verif.Props.C61_outcome",
    "Verif.Props.C61_accepts",
    "Verif.Props.C61_returns",
    "Verif.Props.C61_compiles"
   ],
   "note": "Composition of C56, C52, C35, C59, C36 and C17-C21 on bytes of source; conditions on the sources are those of the single properties (well-formedness, names, order of references). imports.Process, which formats the printed text and adds imports, is outside."
  },
  {
   "property": "C62",
   "status": "proved",
   "theorems": [
    "Verif.Props.C62_tests_read",
    "Verif.Props.C62_fuzz_read",
    "Verif.Props.C62_text_determines",
    "Verif.Props.C62_generated"
   ],
   "note": "Read by Verif/GoRead and Verif/GoReadTest, written from the Go specification. All golden test and fuzzing files of gen/tests and examples are read in the kernel and the tests pass in the model (Props/GoldenCases)."
  },
  {
   "property": "C63",
   "status": "proved",
   "theorems": [
    "Verif.Props.C63_files",
    "Verif.Props.C63_accepts",
    "Verif.Props.C63_tests",
    "Verif.Props.C63_succeeds"
   ],
   "note": "imports.Process is any function that may fail and that keeps what text is when read (Faithful; writing the text unchanged is an instance). That tests pass is under the conditions of C57 (class FmtGen, cases shorter than its bound) and for formats without contexts."
  },
  {
   "property": "C64",
   "status": "proved",
   "theorems": [
    "Verif.Props.C64_combinations",
    "Verif.Props.C64_count",
    "Verif.Props.C64_exponential"
   ],
   "note": "In the class of formats of C41 (FmtGen, FmtCov, FmtCtx), for vectors shorter than the bound of the class. Example with three unions: at least eight vectors, exactly eight for one random source."
  },
  {
   "property": "C65",
   "status": "proved",
   "theorems": [
    "Verif.Props.C65_counted",
    "Verif.Props.C65_work",
    "Verif.Props.C65_exponential"
   ],
   "note": "The calls of parseExpr that gen-parser.go counts in ExprCnt, in the model of the interpreter without memoization, which parse.go does not turn on. No upper bound is proved; exact counts of small texts are examples."
  },
  {
   "property": "C66",
   "status": "proved",
   "theorems": [
    "Verif.Props.C66_decided",
    "Verif.Props.C66_report",
    "Verif.Props.C66_offset",
    "Verif.Props.C66_byte"
   ],
   "note": "The interpreter of gen-parser.go with positions, recorded errors and farthest failure (Verif/PegDiag). A line feed counts to the line after it (column 0), and remarks suppress the report that no match was found: both are shown by examples. Not every wrong number is claimed to be remarked on."
  },
  {
   "property": "C67",
   "status": "proved",
   "theorems": [
    "Verif.Props.C66_report",
    "Verif.Props.C67_no_match",
    "Verif.Props.C67_last"
   ],
   "note": "C66_report gives NoMatch for error texts without remarks. Expected terminals are described by a relation on the grammar (Tries, Blame), without the parser's bookkeeping."
  },
  {
   "property": "C68",
   "status": "proved",
   "theorems": [
    "Verif.Props.C66_report",
    "Verif.Props.C68_wrong",
    "Verif.Props.C68_clean"
   ],
   "note": ""
  },
  {
   "property": "C69",
   "status": "proved",
   "theorems": [
    "Verif.Props.decides_of",
    "Verif.Props.C69_exact",
    "Verif.Props.C69_decides",
    "Verif.Props.tor_cell_common_works",
    "Verif.Props.tor_cell_rendezvous_works",
    "Verif.Props.tor_channelpadding_negotiation_works",
    "Verif.Props.tor_ed25519_cert_works",
    "Verif.Props.tor_link_handshake_works",
    "Verif.Props.tor_pwbox_works",
    "Verif.Props.tor_cell_establish_intro_works",
    "Verif.Props.tor_cell_introduce1_works",
    "Verif.Props.trunnel_contexts_works",
    "Verif.Props.trunnel_example_works",
    "Verif.Props.trunnel_example2_works",
    "Verif.Props.trunnel_leftover_works",
    "Verif.Props.trunnel_positions_works",
    "Verif.Props.trunnel_prop220_works",
    "Verif.Props.trunnel_simple_works",
    "Verif.Props.trunnel_socks5_works",
    "Verif.Props.trunnel_tor_rend_works",
    "Verif.Props.trunnel_derived_works",
    "Verif.Props.trunnel_opaque_works",
    "Verif.Props.trunnel_prop224_works",
    "Verif.Props.tests_color_works",
    "Verif.Props.tests_constant_works",
    "Verif.Props.tests_constraint_works",
    "Verif.Props.tests_contexts_works",
    "Verif.Props.tests_eos_works",
    "Verif.Props.tests_fixie_works",
    "Verif.Props.tests_ints_works",
    "Verif.Props.tests_leftover_works",
    "Verif.Props.tests_nest_works",
    "Verif.Props.tests_nulterm_works",
    "Verif.Props.tests_pos_works",
    "Verif.Props.tests_rem_works",
    "Verif.Props.tests_unionbasic_works",
    "Verif.Props.tests_unioncmds_works",
    "Verif.Props.tests_unionlen_works",
    "Verif.Props.tests_unionlo_works",
    "Verif.Props.tests_vararray_works",
    "Verif.Props.examples_color_color_works",
    "Verif.Props.examples_date_date_works",
    "Verif.Props.gen_valid_i_recv_works",
    "Verif.Props.gen_valid_t_recv_works",
    "Verif.Props.parse_valid_tor_works",
    "Verif.Props.parse_valid_union_var_array_works"
   ],
   "note": "The check is sound, not complete. That a shipped format passes is evaluated in the kernel; the conclusion is about all inputs. Go names of identifiers are those of the stand-in for snaker in Verif/Golden for the shipped formats, arbitrary in C69_exact and C69_decides. derived.trunnel has a 64-bit length: only Exact. The 16 files the repository's tests expect to be refused are refused (parse_failing_..._refused)."
  },
  {
   "property": "C70",
   "status": "proved",
   "theorems": [
    "Verif.Props.C70_size",
    "Verif.Props.C70_reached",
    "Verif.Props.C70_tag_as_count"
   ],
   "note": "A number of elements may be the length of a union (then as many elements are counted as the union has bytes), but not a tag, and this condition is needed: C70_tag_as_count."
  },
  {
   "property": "C71",
   "status": "proved",
   "theorems": [
    "Verif.Props.C71_tested",
    "Verif.Props.C71_not_tested",
    "Verif.Props.C71_exactly",
    "Verif.Props.C71_nonempty",
    "Verif.Props.C71_tests_pass",
    "Verif.Props.C71_corpus",
    "Verif.Props.C71_some_use",
    "Verif.Props.C71_no_vectors"
   ],
   "note": "C71_corpus is under the conditions of C40, C41 and C60 on the format; all conditions are on declarations and computable. Suites without vectors get a test even if the struct has contexts: C71_no_vectors."
  },
  {
   "property": "C72",
   "status": "proved",
   "theorems": [
    "Verif.Props.C72_passing",
    "Verif.Props.C72_covering",
    "Verif.Props.C72_failing",
    "Verif.Props.C72_no_vectors",
    "Verif.Props.tor_cell_common_tested",
    "Verif.Props.tor_cell_rendezvous_tested",
    "Verif.Props.tor_channelpadding_negotiation_tested",
    "Verif.Props.tor_link_handshake_tested",
    "Verif.Props.tor_pwbox_no_vectors",
    "Verif.Props.tor_cell_establish_intro_tested",
    "Verif.Props.trunnel_leftover_no_vectors",
    "Verif.Props.trunnel_positions_tested",
    "Verif.Props.trunnel_simple_tested",
    "Verif.Props.trunnel_opaque_tested",
    "Verif.Props.trunnel_socks5_fails",
    "Verif.Props.tests_color_tested",
    "Verif.Props.tests_constant_tested",
    "Verif.Props.tests_constraint_tested",
    "Verif.Props.tests_contexts_tested",
    "Verif.Props.trunnel_contexts_tested",
    "Verif.Props.tests_eos_tested",
    "Verif.Props.tests_fixie_tested",
    "Verif.Props.tests_ints_tested",
    "Verif.Props.tests_leftover_no_vectors",
    "Verif.Props.tests_nest_tested",
    "Verif.Props.tests_nulterm_tested",
    "Verif.Props.tests_pos_tested",
    "Verif.Props.tests_rem_tested",
    "Verif.Props.tests_unionbasic_fails",
    "Verif.Props.tests_unioncmds_tested",
    "Verif.Props.tests_unionlen_tested",
    "Verif.Props.tests_unionlo_no_vectors",
    "Verif.Props.tests_vararray_tested",
    "Verif.Props.examples_color_color_tested",
    "Verif.Props.examples_date_date_tested",
    "Verif.Props.gen_valid_i_recv_tested",
    "Verif.Props.gen_valid_t_recv_tested",
    "Verif.Props.parse_valid_union_var_array_tested"
   ],
   "note": "The checks are sound, not complete. Failing tests are for the random source of math/rand with seed 1 (unionbasic) and for another source (socks5). Undecided: contexts, prop220, prop224, tor.trunnel. Of testdata, ed25519_cert, cell_introduce1, example, example2 and tor-rend also have failing tests by evaluation outside the kernel, which runs out of memory on them (DESIGN.md)."
  },
  {
   "property": "C73",
   "status": "proved",
   "theorems": [
    "Verif.Props.C73_nested",
    "Verif.Props.C73_nested_after",
    "Verif.Props.C73_empty",
    "Verif.Props.C73_empty_not",
    "Verif.Props.C73_count_range",
    "Verif.Props.C73_tag_range",
    "Verif.Props.C73_length",
    "Verif.Props.C73_rest",
    "Verif.Props.C73_ignore",
    "Verif.Props.C73_disagree",
    "Verif.Props.C73_no_value"
   ],
   "note": "Existence statements with witnesses; that the parser decides the format is for all inputs. The random source is a model of math/rand, compared with the vectors in the repository (Props/GoldenVectors)."
  },
  {
   "property": "C74",
   "status": "proved",
   "theorems": [
    "Verif.Props.C74_limit",
    "Verif.Props.C74_bounded",
    "Verif.Props.C74_asks",
    "Verif.Props.C74_for_nothing"
   ],
   "note": "The limit on make is a parameter of the semantics (a slice of more than A elements panics); that no panic occurs with limit 2^k-1 says that no larger slice is asked for. C74_bounded needs lengths of unions of at most 32 bits (64-bit lengths panic for another reason, C20). Slices are not bounded by the input: four bytes can ask for 2^32-1 elements."
  },
  {
   "property": "C75",
   "status": "proved",
   "theorems": [
    "Verif.Props.C75_loops",
    "Verif.Props.C75_idle"
   ],
   "note": "Iterations of each loop and the depth of calls, in the model where fuel bounds both; for the number of steps in total see C76. Without the condition on elements: C75_idle."
  },
  {
   "property": "C76",
   "status": "proved",
   "theorems": [
    "Verif.Props.C76_linear",
    "Verif.Props.C76_cut",
    "Verif.Props.C76_idle"
   ],
   "note": "The cost model counts statements, tests of conditions and bytes looked at by bytes.IndexByte; make and conversion to string count one (sizes of slices: C74). C76_cut says for every program that a call cut off by fuel has executed as many statements. Without the condition on elements: C76_idle."
  },
  {
   "property": "C77",
   "status": "proved",
   "theorems": [
    "Verif.Props.C77_method",
    "Verif.Props.C77_new",
    "Verif.Props.C77_ctor",
    "Verif.Props.C77_emitted"
   ],
   "note": "Type soundness of the checker of C36 with respect to the interpreter. The type int is unbounded in the typing of values (lengths of lists are). What programs do with memory shared by slices is not modelled; emitted programs do not share (Verif/GoSem)."
  },
  {
   "property": "C78",
   "status": "proved",
   "theorems": [
    "Verif.Props.C78_exact",
    "Verif.Props.C78_linear",
    "Verif.Props.C78_work",
    "Verif.Props.tor_cell_common_linear",
    "Verif.Props.tor_cell_rendezvous_linear",
    "Verif.Props.tor_channelpadding_negotiation_linear",
    "Verif.Props.tor_pwbox_linear",
    "Verif.Props.trunnel_simple_linear",
    "Verif.Props.gen_valid_i_recv_linear",
    "Verif.Props.gen_valid_t_recv_linear",
    "Verif.Props.parse_valid_union_var_array_linear"
   ],
   "note": "The first two theorems are about all sources; C78_work about all that pass the check, and the others give instances of it for files of the repository. The constants are those of the bound of C76, not the best ones."
  },
  {
   "property": "C79",
   "status": "proved",
   "theorems": [
    "Verif.Props.C79_build",
    "Verif.Props.C79_marshallers",
    "Verif.Props.C79_tests"
   ],
   "note": "The iteration order is a parameter of the model (an arbitrary permutation for each loop over a map). imports.Process and the hash are arbitrary functions, so assumed to be deterministic."
  },
  {
   "property": "C80",
   "status": "proved",
   "theorems": [
    "Verif.Props.C80_lookups",
    "Verif.Props.C80_program",
    "Verif.Props.C80_succeeds",
    "Verif.Props.C80_behaviour",
    "Verif.Props.C80_files",
    "Verif.Props.C80_contexts_needed"
   ],
   "note": "Declarations of the same struct (all but one are extern) must name the same contexts; C80_contexts_needed shows that this cannot be dropped. Test vectors are not the same, as random numbers are drawn in order of declarations."
  },
  {
   "property": "C81",
   "status": "proved",
   "theorems": [
    "Verif.Props.C81_text",
    "Verif.Props.C81_program",
    "Verif.Props.C81_none_left"
   ],
   "note": "About the parsers; test vectors are not compared."
  },
  {
   "property": "C82",
   "status": "proved",
   "theorems": [
    "Verif.Props.C82_loads",
    "Verif.Props.C82_program",
    "Verif.Props.C82_text",
    "Verif.Props.C82_names",
    "Verif.Props.C82_behaviour",
    "Verif.Props.C82_initials_needed"
   ],
   "note": "Contexts keep their names, which are also names of Go parameters; initials of structs are kept, which C82_initials_needed shows to be needed. User code for extern structs is assumed to do the same under the other name. Test vectors are not compared."
  },
  {
   "property": "C83",
   "status": "proved",
   "theorems": [
    "Verif.Props.C83_program",
    "Verif.Props.C83_text",
    "Verif.Props.C83_together",
    "Verif.Props.C83_contexts_needed"
   ],
   "note": "About the parsers; test vectors are not compared."
  },
  {
   "property": "C84",
   "status": "proved",
   "theorems": [
    "Verif.Props.C84_meaning",
    "Verif.Props.C84_parsers",
    "Verif.Props.C84_unrelated"
   ],
   "note": "For files that pass the checks of C69 (Accepted, Returned), alone and together."
  }
 ]
}