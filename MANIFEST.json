{
 "claims": [
  {
   "property": "C01",
   "status": "proved",
   "theorems": [
    "Bracket.Props.C01_tiles",
    "Bracket.Props.C01_lossless",
    "Bracket.Props.C01_params_tiles"
   ],
   "note": ""
  },
  {
   "property": "C02",
   "status": "proved",
   "theorems": [
    "Bracket.Props.C02_normalized"
   ],
   "note": ""
  },
  {
   "property": "C03",
   "status": "proved",
   "theorems": [
    "Bracket.Props.C03_compile",
    "Bracket.Props.C03_lint",
    "Bracket.Props.C03_evaluate"
   ],
   "note": "The model runs every parser loop with a recursion bound computed from the number of tokens; the theorems say the bound is never hit, so the loops end."
  },
  {
   "property": "C04",
   "status": "proved",
   "theorems": [
    "Bracket.Props.C04_compiles",
    "Bracket.Props.C04_once",
    "Bracket.Props.C04_registered"
   ],
   "note": ""
  },
  {
   "property": "C05",
   "status": "proved",
   "theorems": [
    "Bracket.Props.C05_no_markup",
    "Bracket.Props.C05_html_safe",
    "Bracket.Props.C05_decode_escape",
    "Bracket.Props.C05_escape_injective",
    "Bracket.Props.C05_escape_append",
    "Bracket.Props.C05_escape_id"
   ],
   "note": ""
  },
  {
   "property": "C06",
   "status": "proved",
   "theorems": [
    "Bracket.Props.C06_value",
    "Bracket.Props.C06_string",
    "Bracket.Props.C06_missing"
   ],
   "note": "Nothing is written when the printed value is empty, so an escape function that maps the empty string to something is not applied to it; C06_string therefore assumes escape [] = []."
  },
  {
   "property": "C07",
   "status": "proved",
   "theorems": [
    "Bracket.Props.C07_stringify"
   ],
   "note": "Printing of non-integer numbers is the Host parameter showFloat."
  },
  {
   "property": "C08",
   "status": "proved",
   "theorems": [
    "Bracket.Props.C08_truthy"
   ],
   "note": ""
  },
  {
   "property": "C09",
   "status": "proved",
   "theorems": [
    "Bracket.Props.C09_resolution_order",
    "Bracket.Props.C09_missing",
    "Bracket.Props.C09_written"
   ],
   "note": ""
  },
  {
   "property": "C10",
   "status": "proved",
   "theorems": [
    "Bracket.Props.C10_explicit_this",
    "Bracket.Props.C10_written",
    "Bracket.Props.C10_dot"
   ],
   "note": ""
  },
  {
   "property": "C11",
   "status": "partial",
   "theorems": [
    "Bracket.Props.C11_parents",
    "Bracket.Props.C11_written_partial",
    "Bracket.Props.C11_compiled_partial",
    "Bracket.Props.C11_violated",
    "Bracket.Props.C11_compile_violated",
    "Bracket.Props.C11_wraps_violated"
   ],
   "note": "Proved for up to 255 ../ (C11_written_partial, C11_compiled_partial). Violated by the code for more: the counter is a u8, which panics with overflow checks (C11_violated, C11_compile_violated) and wraps without (C11_wraps_violated)."
  },
  {
   "property": "C12",
   "status": "partial",
   "theorems": [
    "Bracket.Props.C12_root_partial",
    "Bracket.Props.C12_root_alone_missing",
    "Bracket.Props.C12_written_partial",
    "Bracket.Props.C12_alone_violated"
   ],
   "note": "The code violates the claim for @root alone: it is always missing."
  },
  {
   "property": "C13",
   "status": "proved",
   "theorems": [
    "Bracket.Props.C13_locals",
    "Bracket.Props.C13_absolute",
    "Bracket.Props.C13_written",
    "Bracket.Props.C13_local",
    "Bracket.Props.C13_nothing"
   ],
   "note": ""
  },
  {
   "property": "C14",
   "status": "proved",
   "theorems": [
    "Bracket.Props.C14_helper",
    "Bracket.Props.C14_shadows",
    "Bracket.Props.C14_this",
    "Bracket.Props.C14_path",
    "Bracket.Props.C14_block"
   ],
   "note": "KeysOk: hash keys of the call are distinct."
  },
  {
   "property": "C15",
   "status": "partial",
   "theorems": [
    "Bracket.Props.C15_strict_partial",
    "Bracket.Props.C15_lenient",
    "Bracket.Props.C15_resolvable",
    "Bracket.Props.C15_explicit_lenient",
    "Bracket.Props.C15_block"
   ],
   "note": "Violated by the code: a missing this.name is no error in strict mode (C15_explicit_lenient). The rest is proved."
  },
  {
   "property": "C16",
   "status": "proved",
   "theorems": [
    "Bracket.Props.C16_if",
    "Bracket.Props.C16_unless",
    "Bracket.Props.C16_value",
    "Bracket.Props.C16_fails",
    "Bracket.Props.C16_registered",
    "Bracket.Props.C16_unless_fails",
    "Bracket.Props.C16_unless_value"
   ],
   "note": "What a node renders to is given by C34_block and the per-node theorems."
  },
  {
   "property": "C17",
   "status": "proved",
   "theorems": [
    "Bracket.Props.C17_array",
    "Bracket.Props.C17_object",
    "Bracket.Props.C17_other",
    "Bracket.Props.C17_fails"
   ],
   "note": "The inner template may call any balanced helpers (C27)."
  },
  {
   "property": "C18",
   "status": "proved",
   "theorems": [
    "Bracket.Props.C18_with",
    "Bracket.Props.C18_null",
    "Bracket.Props.C18_fails"
   ],
   "note": "The inner template may call any balanced helpers (C27)."
  },
  {
   "property": "C19",
   "status": "partial",
   "theorems": [
    "Bracket.Props.C19_lookup_partial",
    "Bracket.Props.C19_panics"
   ],
   "note": "Violated by the code: a field that is not a string panics (C19_panics). The rest is proved."
  },
  {
   "property": "C20",
   "status": "proved",
   "theorems": [
    "Bracket.Props.C20_compare",
    "Bracket.Props.C20_trichotomy",
    "Bracket.Props.C20_order",
    "Bracket.Props.C20_equivalence",
    "Bracket.Props.C20_type_error",
    "Bracket.Props.C20_exact_small",
    "Bracket.Props.C20_integers_never_reversed",
    "Bracket.Props.C20_nearest",
    "Bracket.Props.C20_eq_collision"
   ],
   "note": "Exact below 2^53 as claimed; above it the code compares doubles and distinct integers may be equal (C20_eq_collision)."
  },
  {
   "property": "C21",
   "status": "proved",
   "theorems": [
    "Bracket.Props.C21_logical"
   ],
   "note": ""
  },
  {
   "property": "C22",
   "status": "proved",
   "theorems": [
    "Bracket.Props.C22_wrong_arity",
    "Bracket.Props.C22_right_arity"
   ],
   "note": ""
  },
  {
   "property": "C23",
   "status": "partial",
   "theorems": [
    "Bracket.Props.C23_requires_all",
    "Bracket.Props.C23_single_partial",
    "Bracket.Props.C23_rejects_alternatives"
   ],
   "note": "Violated by the code: all listed types are required. Exact behaviour and the violation proved."
  },
  {
   "property": "C24",
   "status": "proved",
   "theorems": [
    "Bracket.Props.C24_partials",
    "Bracket.Props.C24_cycle"
   ],
   "note": "Stated over the ghost record of calls entered and left."
  },
  {
   "property": "C25",
   "status": "proved",
   "theorems": [
    "Bracket.Props.C25_helpers",
    "Bracket.Props.C25_balanced",
    "Bracket.Props.C25_cycle",
    "Bracket.Props.C25_enters"
   ],
   "note": "Stated over the ghost record of calls entered and left."
  },
  {
   "property": "C26",
   "status": "proved",
   "theorems": [
    "Bracket.Props.C26_render",
    "Bracket.Props.C26_api",
    "Bracket.Props.C26_builtins",
    "Bracket.Props.C26_default"
   ],
   "note": "Helpers are well-founded programs over the renderer interface; WithinReg bounds the names of local helpers. once through registry() is not part of that interface."
  },
  {
   "property": "C27",
   "status": "proved",
   "theorems": [
    "Bracket.Props.C27_node",
    "Bracket.Props.C27_render",
    "Bracket.Props.C27_builtins",
    "Bracket.Props.C27_default"
   ],
   "note": ""
  },
  {
   "property": "C28",
   "status": "proved",
   "theorems": [
    "Bracket.Props.C28_grows",
    "Bracket.Props.C28_error"
   ],
   "note": ""
  },
  {
   "property": "C29",
   "status": "proved",
   "theorems": [
    "Bracket.Props.C29_statement",
    "Bracket.Props.C29_succeeds",
    "Bracket.Props.C29_scopes",
    "Bracket.Props.C29_block"
   ],
   "note": "The scopes are restored when the helpers called are balanced (C27); KeysOk: hash keys of the call are distinct."
  },
  {
   "property": "C30",
   "status": "partial",
   "theorems": [
    "Bracket.Props.C30_seen",
    "Bracket.Props.C30_file",
    "Bracket.Props.C30_inside_partial",
    "Bracket.Props.C30_restored_partial",
    "Bracket.Props.C30_violated",
    "Bracket.Props.C30_unknown"
   ],
   "note": "Violated by the code: after {{> @partial-block}} the current name is wrong (C30_violated), and a partial called unknown has no name (C30_unknown). Proved for renders in which no @partial-block is started, with balanced helpers."
  },
  {
   "property": "C31",
   "status": "proved",
   "theorems": [
    "Bracket.Props.C31_buffer",
    "Bracket.Props.C31_once"
   ],
   "note": "Log lines of the inner render do reach the log."
  },
  {
   "property": "C32",
   "status": "proved",
   "theorems": [
    "Bracket.Props.C32_comment",
    "Bracket.Props.C32_escaped_tag",
    "Bracket.Props.C32_escaped_link",
    "Bracket.Props.C32_plain_link"
   ],
   "note": ""
  },
  {
   "property": "C33",
   "status": "proved",
   "theorems": [
    "Bracket.Props.C33_verbatim",
    "Bracket.Props.C33_helper"
   ],
   "note": ""
  },
  {
   "property": "C34",
   "status": "proved",
   "theorems": [
    "Bracket.Props.C34_space",
    "Bracket.Props.C34_text",
    "Bracket.Props.C34_verbatim",
    "Bracket.Props.C34_write",
    "Bracket.Props.C34_neighbours",
    "Bracket.Props.C34_block"
   ],
   "note": ""
  },
  {
   "property": "C35",
   "status": "proved",
   "theorems": [
    "Bracket.Props.C35_registry_is_map",
    "Bracket.Props.C35_last_insert",
    "Bracket.Props.C35_removed",
    "Bracket.Props.C35_failed_insert"
   ],
   "note": ""
  },
  {
   "property": "C36",
   "status": "proved",
   "theorems": [
    "Bracket.Props.C36_missing",
    "Bracket.Props.C36_found"
   ],
   "note": ""
  },
  {
   "property": "C37",
   "status": "proved",
   "theorems": [
    "Bracket.Props.C37_entry_points_agree",
    "Bracket.Props.C37_same_error"
   ],
   "note": "Compared on the same registry (insert changes it)."
  },
  {
   "property": "C38",
   "status": "proved",
   "theorems": [
    "Bracket.Props.C38_clean",
    "Bracket.Props.C38_first",
    "Bracket.Props.C38_reports",
    "Bracket.Props.C38_noerr"
   ],
   "note": "Lint goes on after the first error and may panic there (C40)."
  },
  {
   "property": "C39",
   "status": "proved",
   "theorems": [
    "Bracket.Props.C39_exact",
    "Bracket.Props.C39_snippet",
    "Bracket.Props.C39_panics",
    "Bracket.Props.C39_fails"
   ],
   "note": "Column widths are the Host parameter width. C39_fails: the failing cases the statement describes do occur."
  },
  {
   "property": "C40",
   "status": "partial",
   "theorems": [
    "Bracket.Props.C40_partial",
    "Bracket.Props.C40_line_partial",
    "Bracket.Props.C40_violated"
   ],
   "note": "Violated by the code (C40_violated). Proved: every panic has one of the causes in C40_partial."
  },
  {
   "property": "C41",
   "status": "partial",
   "theorems": [
    "Bracket.Props.C41_texts",
    "Bracket.Props.C41_exact",
    "Bracket.Props.C41_partial",
    "Bracket.Props.C41_plain",
    "Bracket.Props.C41_violated"
   ],
   "note": "Violated by the code: escapes at the end of a literal are cut off (C41_violated). Proved exactly (C41_exact), and as claimed for literals that do not end with an escape."
  },
  {
   "property": "C42",
   "status": "partial",
   "theorems": [
    "Bracket.Props.C42_fields_partial",
    "Bracket.Props.C42_handler",
    "Bracket.Props.C42_violated"
   ],
   "note": "Violated by the code: an empty label or title panics when there is a link handler (C42_violated). Proved for non-empty fields, with escapes (\\n, \\|, \\])."
  },
  {
   "property": "C43",
   "status": "proved",
   "theorems": [
    "Bracket.Props.C43_last_wins",
    "Bracket.Props.C43_keys",
    "Bracket.Props.C56_roundtrip"
   ],
   "note": "C43_last_wins: the sequence of parameters added to a call; C43_keys: in every compiled template each key of a call occurs once; C56_roundtrip: the hash of the call has the printed values."
  },
  {
   "property": "C44",
   "status": "partial",
   "theorems": [
    "Bracket.Props.C44_partial",
    "Bracket.Props.C44_unclosed",
    "Bracket.Props.C44_violated"
   ],
   "note": "Violated by the code: an unclosed block, a stray raw end tag or an unfinished tag drops the rest (C44_violated, C44_unclosed). Proved up to those."
  },
  {
   "property": "C45",
   "status": "proved",
   "theorems": [
    "Bracket.Props.C45_closed",
    "Bracket.Props.C45_not_open",
    "Bracket.Props.C45_mismatch",
    "Bracket.Props.C45_raw_mismatch"
   ],
   "note": "C45_closed for every source. The errors are proved for end tags after every template, and inside every sequence of open blocks, of the printed syntax (Spec/Surface.lean), followed by anything. An error that cannot be shown (C39) panics."
  },
  {
   "property": "C46",
   "status": "partial",
   "theorems": [
    "Bracket.Props.C46_aborts",
    "Bracket.Props.C46_api",
    "Bracket.Props.C46_builtins",
    "Bracket.Props.C46_default",
    "Bracket.Props.C46_string",
    "Bracket.Props.C46_render",
    "Bracket.Props.C46_written_partial",
    "Bracket.Props.C46_violated"
   ],
   "note": "Violated by the code: Writer makes a single write call and ignores short writes (C46_violated); proved for devices that take all bytes. Errors abort the render for helpers that pass them on (Honest), as the built-in ones do."
  },
  {
   "property": "C47",
   "status": "partial",
   "theorems": [
    "Bracket.Props.C47_shadows_partial",
    "Bracket.Props.C47_removed",
    "Bracket.Props.C47_explicit",
    "Bracket.Props.C47_violated"
   ],
   "note": "Violated by the code: a local helper stays registered after the helper that registered it returns (C47_violated). Shadowing and explicit removal proved."
  },
  {
   "property": "C48",
   "status": "proved",
   "theorems": [
    "Bracket.Props.C48_helper_missing",
    "Bracket.Props.C48_variable",
    "Bracket.Props.C48_path",
    "Bracket.Props.C48_block_helper_missing",
    "Bracket.Props.C48_block_missing",
    "Bracket.Props.C48_block_variable"
   ],
   "note": ""
  },
  {
   "property": "C49",
   "status": "partial",
   "theorems": [
    "Bracket.Props.C49_value_partial",
    "Bracket.Props.C49_argument_partial",
    "Bracket.Props.C49_agrees_partial",
    "Bracket.Props.C49_pure",
    "Bracket.Props.C49_blank",
    "Bracket.Props.C49_violated",
    "Bracket.Props.C49_panics"
   ],
   "note": "Violated by the code: text after the path is ignored (C49_violated), some syntax errors panic (C49_panics). Proved for the paths of Spec/Surface.lean."
  },
  {
   "property": "C50",
   "status": "proved",
   "theorems": [
    "Bracket.Props.C50_literal",
    "Bracket.Props.C50_path",
    "Bracket.Props.C50_sub",
    "Bracket.Props.C50_count",
    "Bracket.Props.C50_hash_literal",
    "Bracket.Props.C50_hash_path",
    "Bracket.Props.C50_hash_sub",
    "Bracket.Props.C50_hash_absent",
    "Bracket.Props.C50_fallback",
    "Bracket.Props.C50_hash_fallback",
    "Bracket.Props.C50_raw"
   ],
   "note": ""
  },
  {
   "property": "C51",
   "status": "proved",
   "theorems": [
    "Bracket.Props.C51_order",
    "Bracket.Props.C51_written",
    "Bracket.Props.C51_any"
   ],
   "note": "Parameter keys of the call are distinct (C43). C51_written: end to end, for all calls at any depth of templates of the surface syntax and their partials; C51_any: every permutation of hash arguments is covered by it."
  },
  {
   "property": "C52",
   "status": "partial",
   "theorems": [
    "Bracket.Props.C52_partial",
    "Bracket.Props.C52_violated"
   ],
   "note": "Violated by the code (C52_violated). Proved for sources without newlines in links and after / or ../, except texts that begin with a newline."
  },
  {
   "property": "C53",
   "status": "proved",
   "theorems": [
    "Bracket.Props.C53_once",
    "Bracket.Props.C53_registered"
   ],
   "note": "For every well-formed template of the surface syntax without ~ and partials; the reference interpreter is Spec/Core.lean. Helpers of the application (values, texts they write, block content) and its three handlers are covered: Equipped."
  },
  {
   "property": "C54",
   "status": "proved",
   "theorems": [
    "Bracket.Props.C54_inert",
    "Bracket.Props.C54_whole",
    "Bracket.Props.C54_compiled",
    "Bracket.Props.C54_source",
    "Bracket.Props.C54_builtins",
    "Bracket.Props.C54_new",
    "Bracket.Props.C54_insert",
    "Bracket.Props.C54_text",
    "Bracket.Props.C54_char"
   ],
   "note": "C54_compiled, C54_text, C54_char: for every source that compiles. Each piece of the output is text of the template or free of markup. Helpers and handlers of the application are Careful: they escape what they write."
  },
  {
   "property": "C55",
   "status": "proved",
   "theorems": [
    "Bracket.Props.C55_maximal_munch"
   ],
   "note": "Assumes the logos contract stated in DESIGN.md; the theorem shows the model computes it for regular expressions."
  },
  {
   "property": "C56",
   "status": "proved",
   "theorems": [
    "Bracket.Props.C56_roundtrip"
   ],
   "note": "For every template of Spec/Surface.lean: all literals, any white space, all kinds of tags."
  },
  {
   "property": "C57",
   "status": "proved",
   "theorems": [
    "Bracket.Props.C57_log"
   ],
   "note": ""
  },
  {
   "property": "C58",
   "status": "proved",
   "theorems": [
    "Bracket.Props.C58_json",
    "Bracket.Props.C58_printable",
    "Bracket.Props.C58_strings",
    "Bracket.Props.C58_unambiguous",
    "Bracket.Props.C58_distinct",
    "Bracket.Props.C58_injective"
   ],
   "note": "C58_unambiguous: a JSON text denotes one value, up to floats written the same (hypothesis: floats are written as numbers with a point or exponent). Float texts are Host.showFloat (serde_json/ryu is not modelled)."
  },
  {
   "property": "C59",
   "status": "proved",
   "theorems": [
    "Bracket.Props.C59_comment",
    "Bracket.Props.C59_raw_comment",
    "Bracket.Props.C59_escaped",
    "Bracket.Props.C59_link",
    "Bracket.Props.C59_raw_block"
   ],
   "note": "After every template and inside every sequence of open blocks of the printed syntax (Spec/Surface.lean). An error that cannot be shown (C39) panics."
  },
  {
   "property": "C60",
   "status": "proved",
   "theorems": [
    "Bracket.Props.C60_names",
    "Bracket.Props.C60_read_dir",
    "Bracket.Props.C60_deterministic",
    "Bracket.Props.C60_others",
    "Bracket.Props.C60_found",
    "Bracket.Props.C60_load"
   ],
   "note": "File system and directory listing are arbitrary parameters of the model."
  },
  {
   "property": "C61",
   "status": "proved",
   "theorems": [
    "Bracket.Props.C61_once",
    "Bracket.Props.C61_registered",
    "Bracket.Props.C61_insert",
    "Bracket.Props.C61_depth",
    "Bracket.Props.C61_core"
   ],
   "note": "Reference interpreter in Spec/Full.lean, surface syntax in Spec/Surface.lean; helpers of the application that compute, write and render blocks, and the link, helperMissing and blockHelperMissing handlers are covered. Includes the code's deviations: the ~ of {{~ foo}} (with a space) is not seen, the end tag's ~ has no effect on what follows when the block is empty, and tags around the content of a block partial do not trim it."
  },
  {
   "property": "C62",
   "status": "proved",
   "theorems": [
    "Bracket.Props.C62_removes",
    "Bracket.Props.C62_same",
    "Bracket.Props.C62_escapes"
   ],
   "note": "Corollary of C61 by simulation. TextBlind: helpers of the application do not look at the text of raw blocks."
  },
  {
   "property": "C63",
   "status": "proved",
   "theorems": [
    "Bracket.Props.C63_once",
    "Bracket.Props.C63_registered"
   ],
   "note": "Corollary of C61 by simulation. The two exceptions do panic: C19, C57."
  },
  {
   "property": "C64",
   "status": "proved",
   "theorems": [
    "Bracket.Props.C64_once",
    "Bracket.Props.C64_registered",
    "Bracket.Props.C64_compiled"
   ],
   "note": "Corollary of C61 by simulation; C64_compiled is for every compiled template and all helpers that give up at the first error (Prompt), by a relational invariant over the two executions."
  },
  {
   "property": "C65",
   "status": "proved",
   "theorems": [
    "Bracket.Props.C65_once",
    "Bracket.Props.C65_leaks"
   ],
   "note": "Corollary of C61. C65_leaks shows why the first may have no block partials."
  },
  {
   "property": "C66",
   "status": "proved",
   "theorems": [
    "Bracket.Props.C66_once",
    "Bracket.Props.C66_compiled"
   ],
   "note": "Corollary of C61 by simulation; C66_compiled is about everything that compiles (from C95)."
  },
  {
   "property": "C67",
   "status": "proved",
   "theorems": [
    "Bracket.Props.C67_once",
    "Bracket.Props.C67_compiled"
   ],
   "note": "C67_once: corollary of C61 by simulation. C67_compiled: for everything that compiles (from C93)."
  },
  {
   "property": "C68",
   "status": "proved",
   "theorems": [
    "Bracket.Props.C68_recovers",
    "Bracket.Props.C68_ascii"
   ],
   "note": "Induction over the faults: after each error the parser is at the text after the tag."
  },
  {
   "property": "C69",
   "status": "proved",
   "theorems": [
    "Bracket.Props.C69_blame",
    "Bracket.Props.C69_render",
    "Bracket.Props.C69_string",
    "Bracket.Props.C69_once",
    "Bracket.Props.C69_builtins",
    "Bracket.Props.C69_new",
    "Bracket.Props.C69_remove",
    "Bracket.Props.C69_ascii",
    "Bracket.Props.C69_insert",
    "Bracket.Props.C69_helper",
    "Bracket.Props.C69_registry"
   ],
   "note": "Invariant over all executions. That the conditions are needed: the examples at the end of Props/Robust, C19, C42, C57."
  },
  {
   "property": "C70",
   "status": "proved",
   "theorems": [
    "Bracket.Props.C70_labels",
    "Bracket.Props.C70_compiles",
    "Bracket.Props.C70_lint"
   ],
   "note": "Simulation of two parser runs."
  },
  {
   "property": "C71",
   "status": "proved",
   "theorems": [
    "Bracket.Props.C71_template",
    "Bracket.Props.C71_nodes",
    "Bracket.Props.C71_blocks"
   ],
   "note": "From the well-formedness of compiled trees."
  },
  {
   "property": "C72",
   "status": "partial",
   "theorems": [
    "Bracket.Props.C72_sound",
    "Bracket.Props.C72_symmetric",
    "Bracket.Props.C72_partial",
    "Bracket.Props.C72_violated"
   ],
   "note": "The code violates reflexivity for RenderError; exactly which errors are equal to themselves is proved."
  },
  {
   "property": "C73",
   "status": "proved",
   "theorems": [
    "Bracket.Props.C73_line",
    "Bracket.Props.C73_unambiguous",
    "Bracket.Props.C73_kinds",
    "Bracket.Props.C73_around",
    "Bracket.Props.C73_first",
    "Bracket.Props.C73_syntax",
    "Bracket.Props.C73_names",
    "Bracket.Props.C73_recognisable",
    "Bracket.Props.C73_equal",
    "Bracket.Props.C73_template",
    "Bracket.Props.C73_distinct",
    "Bracket.Props.C73_arity",
    "Bracket.Props.C73_debug"
   ],
   "note": "The texts of I/O errors are a parameter. Names and messages chosen by the user may contain anything."
  },
  {
   "property": "C74",
   "status": "proved",
   "theorems": [
    "Bracket.Props.C74_arity",
    "Bracket.Props.C74_content",
    "Bracket.Props.C74_typed",
    "Bracket.Props.C74_try_evaluate",
    "Bracket.Props.C74_not_path",
    "Bracket.Props.C74_lookup"
   ],
   "note": "With one type; with several the code asks for all of them: C23."
  },
  {
   "property": "C75",
   "status": "proved",
   "theorems": [
    "Bracket.Props.C75_named",
    "Bracket.Props.C75_field",
    "Bracket.Props.C75_ignored",
    "Bracket.Props.C75_target"
   ],
   "note": "The reference interpreter of C61 has computed targets; C75_named holds at every top-level position of a template."
  },
  {
   "property": "C76",
   "status": "proved",
   "theorems": [
    "Bracket.Props.C76_local",
    "Bracket.Props.C76_set",
    "Bracket.Props.C76_others",
    "Bracket.Props.C76_push",
    "Bracket.Props.C76_pop"
   ],
   "note": "Names are those that can be written in a template (wordOk, nameOk)."
  },
  {
   "property": "C77",
   "status": "proved",
   "theorems": [
    "Bracket.Props.C77_insert",
    "Bracket.Props.C77_call",
    "Bracket.Props.C77_others",
    "Bracket.Props.C77_remove",
    "Bracket.Props.C77_restored"
   ],
   "note": "Helpers that write texts and compute a value from their arguments, and as blocks write texts and render the content or the else clauses (CustomFn in Spec/Core). Since the reference interpreter has them, C53, C54, C61-C67 and C75 hold with them too."
  },
  {
   "property": "C78",
   "status": "proved",
   "theorems": [
    "Bracket.Props.C78_once",
    "Bracket.Props.C78_same",
    "Bracket.Props.C78_tilde"
   ],
   "note": "What counts as layout is STm.tidy in Spec/Layout. The exception in the statement (white space after the ~ of a statement) is shown by C78_tilde."
  },
  {
   "property": "C79",
   "status": "proved",
   "theorems": [
    "Bracket.Props.C79_inline",
    "Bracket.Props.C79_once",
    "Bracket.Props.C79_this"
   ],
   "note": "STm.inline in Spec/Inline puts the text in place at every depth. C79_this shows why paths relative to the current scope are excluded."
  },
  {
   "property": "C80",
   "status": "proved",
   "theorems": [
    "Bracket.Props.C80_link",
    "Bracket.Props.C80_block",
    "Bracket.Props.C80_missing",
    "Bracket.Props.C80_unknown",
    "Bracket.Props.C80_linked",
    "Bracket.Props.C80_blocked"
   ],
   "note": "Handlers of the form CustomFn (Spec/Core). C80_blocked is stated for handlers that only write; that they may render the content too is in C61."
  },
  {
   "property": "C81",
   "status": "proved",
   "theorems": [
    "Bracket.Props.C81_noop",
    "Bracket.Props.C81_raw",
    "Bracket.Props.C81_compiled",
    "Bracket.Props.C81_builtins",
    "Bracket.Props.C81_new",
    "Bracket.Props.C81_insert"
   ],
   "note": "C81_noop and C81_raw over the reference interpreter and C61; C81_compiled: the second half for every template that compiles and arbitrary helper programs that do not ask for escaping."
  },
  {
   "property": "C82",
   "status": "proved",
   "theorems": [
    "Bracket.Props.C82_new",
    "Bracket.Props.C82_settings",
    "Bracket.Props.C82_unhandled"
   ],
   "note": "The built-in helpers are those of C16, C53."
  },
  {
   "property": "C83",
   "status": "proved",
   "theorems": [
    "Bracket.Props.C83_once",
    "Bracket.Props.C83_removed",
    "Bracket.Props.C83_tilde"
   ],
   "note": "C83_tilde shows why ~ is excluded."
  },
  {
   "property": "C84",
   "status": "proved",
   "theorems": [
    "Bracket.Props.C84_compiled",
    "Bracket.Props.C84_named",
    "Bracket.Props.C84_computed",
    "Bracket.Props.C84_block",
    "Bracket.Props.C84_block_computed",
    "Bracket.Props.C84_partial",
    "Bracket.Props.C84_partial_block"
   ],
   "note": "BlockTargetSubExpr and BlockIdentifier are only reachable through raw blocks. A computed partial with content is refused too, contrary to the error texts (F33)."
  },
  {
   "property": "C85",
   "status": "proved",
   "theorems": [
    "Bracket.Props.C85_once",
    "Bracket.Props.C85_text",
    "Bracket.Props.C85_elseUnless",
    "Bracket.Props.C85_limit"
   ],
   "note": "The rules are the constructors of Recast and RecastCls in Spec/Rewrite (any combination, either direction, at any depth). C85_limit shows why the recursion limit is an exception. C85_elseUnless: `{{else unless x}}` is never rendered (F34)."
  },
  {
   "property": "C86",
   "status": "proved",
   "theorems": [
    "Bracket.Props.C86_once",
    "Bracket.Props.C86_registered",
    "Bracket.Props.C86_shows",
    "Bracket.Props.C86_compiled",
    "Bracket.Props.C86_text"
   ],
   "note": "C86_compiled and C86_text are about everything that compiles. Helpers of the application that look at current_name are not among those covered (CustomFn)."
  },
  {
   "property": "C87",
   "status": "proved",
   "theorems": [
    "Bracket.Props.C87_partial",
    "Bracket.Props.C87_hash",
    "Bracket.Props.C87_with",
    "Bracket.Props.C87_with_nested",
    "Bracket.Props.C87_inherits"
   ],
   "note": "C87_inherits shows why names of the outer data are excluded; custom helpers must give the scopes they make a value"
  },
  {
   "property": "C88",
   "status": "partial",
   "theorems": [
    "Bracket.Props.C88_located",
    "Bracket.Props.C88_partial",
    "Bracket.Props.C88_number_partial",
    "Bracket.Props.C88_violated"
   ],
   "note": "The code breaks it (C88_violated): the number is that of the line reached, not of the line shown, if a tag is broken over lines; a block without a name is shown at the beginning of the source; a comment opened by the last token is shown at some earlier place. C88_located describes every error exactly in these terms; C88_partial gives the place for the others, C88_number_partial the number if no tag is broken over lines. A source that begins with a newline is left out of the last two (C39)."
  },
  {
   "property": "C89",
   "status": "proved",
   "theorems": [
    "Bracket.Props.C89",
    "Bracket.Props.C89_single",
    "Bracket.Props.C89_texts"
   ],
   "note": "C89: unless a block each is too deep; C89_single: exactly, without each inside. Custom helpers must give the scopes they make a value (Valued); each not replaced"
  },
  {
   "property": "C90",
   "status": "proved",
   "theorems": [
    "Bracket.Props.C90",
    "Bracket.Props.C90_single"
   ],
   "note": "C90: unless a block of that name is too deep; C90_single: exactly, when the branch and the partials have no more blocks of that name. Each condition evaluated must yield a value without writing (custom helpers may write)"
  },
  {
   "property": "C91",
   "status": "proved",
   "theorems": [
    "Bracket.Props.C91_once",
    "Bracket.Props.C91_removed",
    "Bracket.Props.C91_sequence"
   ],
   "note": "C65_leaks shows what happens after a content when a later partial does ask for one."
  },
  {
   "property": "C92",
   "status": "proved",
   "theorems": [
    "Bracket.Props.C92_render",
    "Bracket.Props.C92_history",
    "Bracket.Props.C92_change",
    "Bracket.Props.C92_order"
   ],
   "note": "HashMap iteration order is never observed by the code; the model's association lists have an order, and these theorems prove that no render sees it."
  },
  {
   "property": "C93",
   "status": "proved",
   "theorems": [
    "Bracket.Props.C93_same",
    "Bracket.Props.C93_builtins",
    "Bracket.Props.C93_new",
    "Bracket.Props.C93_written",
    "Bracket.Props.C93_helper",
    "Bracket.Props.C93_template",
    "Bracket.Props.C93_registry"
   ],
   "note": "C66 and C67 are the analogous statements for data and templates of the surface language; here the templates are arbitrary compiled sources and the helpers arbitrary programs. The condition on the text is needed: see the example after C93_registry."
  },
  {
   "property": "C94",
   "status": "proved",
   "theorems": [
    "Bracket.Props.C94_string",
    "Bracket.Props.C94_api",
    "Bracket.Props.C94_prefix",
    "Bracket.Props.C94_two",
    "Bracket.Props.C94_builtins",
    "Bracket.Props.C94_default",
    "Bracket.Props.C94_new",
    "Bracket.Props.C94_insert"
   ],
   "note": "Helpers that catch errors are excluded, and must be: see the example `stubborn`. That the bytes reach the device is C46."
  },
  {
   "property": "C95",
   "status": "proved",
   "theorems": [
    "Bracket.Props.C95_same",
    "Bracket.Props.C95_builtins",
    "Bracket.Props.C95_new",
    "Bracket.Props.C95_insert"
   ],
   "note": "The case of one member of an object is C66_compiled; the same simulation gives C86_compiled and C86_text (the name of the template)."
  },
  {
   "property": "C96",
   "status": "proved",
   "theorems": [
    "Bracket.Props.C96_once",
    "Bracket.Props.C96_same"
   ],
   "note": "Paths that begin with @root: their values do not depend on the scopes. Helpers that ask whether an argument is missing (C50) are not among those covered (CustomFn). Both templates well-formed (T.ok); the registry of the second has the partials with the literals."
  }
 ]
}