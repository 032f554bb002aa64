{
 "claims": [
  {
   "property": "C01",
   "status": "proved",
   "theorems": [
    "Verif.Props.C01_exact",
    "Verif.Props.C01_result"
   ],
   "note": ""
  },
  {
   "property": "C02",
   "status": "proved",
   "theorems": [
    "Verif.Props.C02_complete",
    "Verif.Props.C02_exact"
   ],
   "note": ""
  },
  {
   "property": "C03",
   "status": "partial",
   "theorems": [
    "Verif.Props.C03_grammar",
    "Verif.Props.C03_exact",
    "Verif.Props.C03_exact_type",
    "Verif.Props.C03_parses",
    "Verif.Props.C03_violated",
    "Verif.Props.C03_violated_tagged",
    "Verif.Props.C03_partial"
   ],
   "note": "Full statement C03_statement is false of the code: z.bool does not exist in zod (C03_violated), and z.discriminatedUnion throws for internally tagged enums with a tuple variant payload (C03_violated_tagged). Proved: the text is always an expression when names are identifiers (C03_parses), and evaluates to a schema when those cases and repeated keys are excluded (C03_partial). C03_exact, C03_exact_type: in programs without repeated keys these are exactly the cases in which the texts do not evaluate (bool in a type, payloads in tuple variants of internally tagged enums of two or more variants, variants of tagged enums with one name). C03_grammar: the text is derived by the declarative grammar of Spec/Grammar.lean in exactly one way (the readers are proved equivalent to it: lex_iff, parseExpr_iff)."
  },
  {
   "property": "C04",
   "status": "partial",
   "theorems": [
    "Verif.Props.C04_violated_marker",
    "Verif.Props.C04_refute_decl",
    "Verif.Props.C04_violated_default",
    "Verif.Props.C04_violated_skipped",
    "Verif.Props.C04_violated_missing",
    "Verif.Props.C04_violated_result",
    "Verif.Props.C04_violated_internal",
    "Verif.Props.C04_violated_flatten",
    "Verif.Props.C04_ipv4_exact",
    "Verif.Props.C04_violated_ipv4",
    "Verif.Props.C04_ipv6_partial",
    "Verif.Props.C04_violated_ipv6",
    "Verif.Props.C04_module_partial",
    "Verif.Props.C04_refute",
    "Verif.Props.C04_violated",
    "Verif.Props.C04_violated_infinity",
    "Verif.Props.C04_violated_array",
    "Verif.Props.C04_violated_set",
    "Verif.Props.C04_violated_phantom",
    "Verif.Props.C04_partial",
    "Verif.Props.C04_defined_partial"
   ],
   "note": "False as stated (u64 accepts 2^64; Infinity; array length; Set/Map print as {}; PhantomData; 01.2.3.4; IPv6 addresses of seven groups and a dotted quad; undefined for a tuple field with a default; a tuple struct with one field left; a transparent struct with a PhantomData marker; optional payloads of variants and Result; a single internally tagged newtype variant; flattened fields of variants): refuted with witnesses, so every restriction of the positive theorems except those on conversions with try_from is needed. Proved for Sound types and declarations (strings, char, floats, ints up to 32 bits, unit, boxes, Option, Vec, tuples, Result, structs and enums of all four taggings) and parsed values without infinities or lone surrogates; with wide := true also for 64 bit integers, if the value contains no number beyond 2^53. C04_ipv4_exact: which texts are accepted for an IPv4 address and which serde reads; C04_ipv6_partial: what is accepted for an IPv6 address is one, unless it contains a dot. Missing: maps/sets/arrays/128 bit ints/try_from; structs with flattened fields accept nothing (C05_flatten). C04_module_partial: the same about the constants of the written module."
  },
  {
   "property": "C05",
   "status": "partial",
   "theorems": [
    "Verif.Props.C05_violated_skip_if",
    "Verif.Props.C05_violated_marker",
    "Verif.Props.C05_refute_decl",
    "Verif.Props.C05_flatten",
    "Verif.Props.C05_violated_skipped",
    "Verif.Props.C05_violated_internal",
    "Verif.Props.C05_violated_flatten_variant",
    "Verif.Props.C05_violated_flatten",
    "Verif.Props.C05_refute",
    "Verif.Props.C05_violated",
    "Verif.Props.C05_violated_set",
    "Verif.Props.C05_violated_nan",
    "Verif.Props.C05_violated_char",
    "Verif.Props.C05_violated_phantom",
    "Verif.Props.C05_partial",
    "Verif.Props.C05_ipv6_exact",
    "Verif.Props.C05_violated_ipv6",
    "Verif.Props.C05_module_partial"
   ],
   "note": "False of the code: None is written as null but .optional() rejects null; HashSet, NaN, astral characters, PhantomData/Weak, IPv6 addresses that end with ::, tuple structs with one field left, transparent structs with a PhantomData marker, internally tagged newtype variants, flattened fields, fields that skip_serializing_if leaves out and that have no default (C05_violated*). C05_flatten: the schema of a struct with a flattened field accepts no value at all. C05_partial: every document serde writes for a type of the stated fragment (recursive programs, all four enum representations, skip/default/rename/skip_serializing_if attributes, conversions) is accepted. C05_ipv6_exact: an IPv6 address as Rust prints it is accepted iff it does not end with ::. C05_module_partial: the same about the constants of the written module."
  },
  {
   "property": "C06",
   "status": "partial",
   "theorems": [
    "Verif.Props.C06_agree",
    "Verif.Props.C06_lenient_partial",
    "Verif.Props.C06_strict_partial",
    "Verif.Props.C06_violated",
    "Verif.Props.C06_module_lenient_partial",
    "Verif.Props.C06_module_strict_partial",
    "Verif.Props.C06_arguments_partial"
   ],
   "note": "False of the code as stated (C06_violated): the schema of `struct S { a: Option<u8> }` accepts `{}`, but `a` is not optional in the type. Proved: for every type, what the schema accepts and what parsing returns inhabits the TypeScript type if a missing property counts as `undefined` (C06_lenient_partial); and without that concession for programs in which no property without default has a type allowing `undefined` (C06_strict_partial). C06_module_*: the same about the constants and types the written module declares under one name; C06_arguments_partial: arguments that pass the validation of a generated function have the declared parameter types."
  },
  {
   "property": "C07",
   "status": "partial",
   "theorems": [
    "Verif.Props.C07_grammar",
    "Verif.Props.C07_parses",
    "Verif.Props.C07_flattened_union",
    "Verif.Props.C07_violated",
    "Verif.Props.C07_partial",
    "Verif.Props.C07_reference_is_no_union",
    "Verif.Props.C07_option_is_one_operand"
   ],
   "note": "False of the code as stated: a flattened Result or Box<enum> has a bare union as its text, so `{..} & A | B` groups wrongly (C07_violated, C07_flattened_union). C07_parses: every generated type text is a type expression. C07_partial: it means what the Rust type says whenever no flattened field without default has a text that falls apart behind `&`; references to derived types (C07_reference_is_no_union) and options, which are put in parentheses (C07_option_is_one_operand), never do. C07_grammar: the text is derived by the declarative grammar of types in Spec/Grammar.lean in exactly one way (lex_iff, parseType_iff)."
  },
  {
   "property": "C08",
   "status": "proved",
   "theorems": [
    "Verif.Props.C08_returns_iff",
    "Verif.Props.C08_nonrecursive_returns",
    "Verif.Props.C08_type_def_iff",
    "Verif.Props.C08_schema_iff",
    "Verif.Props.C08_self_reference_diverges"
   ],
   "note": ""
  },
  {
   "property": "C09",
   "status": "proved",
   "theorems": [
    "Verif.Props.C09_references",
    "Verif.Props.C09_struct_from",
    "Verif.Props.C09_enum_from"
   ],
   "note": ""
  },
  {
   "property": "C10",
   "status": "proved",
   "theorems": [
    "Verif.Props.C10_derive",
    "Verif.Props.C10_program",
    "Verif.Props.C10_insert_field",
    "Verif.Props.C10_insert_variant",
    "Verif.Props.C10_insert_variant_field"
   ],
   "note": ""
  },
  {
   "property": "C11",
   "status": "proved",
   "theorems": [
    "Verif.Props.C11_default_order"
   ],
   "note": ""
  },
  {
   "property": "C12",
   "status": "partial",
   "theorems": [
    "Verif.Props.C12_violated",
    "Verif.Props.C12_top_partial",
    "Verif.Props.C12_type_def_partial",
    "Verif.Props.C12_schema_partial",
    "Verif.Props.C12_lookalikes"
   ],
   "note": "False of the code in one case: a wrapper around a derived type inside another type replaces the reference by the full schema (C12_violated). Partial theorems: wrappers at the top, anywhere in the TypeScript type of built-in types, and in schemas unless they stand around a derived type. C12_lookalikes (BTreeSet, BTreeMap, arrays) holds without restriction. That the values accepted stay the same nevertheless is C76."
  },
  {
   "property": "C13",
   "status": "partial",
   "theorems": [
    "Verif.Props.C13_refute",
    "Verif.Props.C13_violated",
    "Verif.Props.C13_violated_missing",
    "Verif.Props.C13_violated_empty",
    "Verif.Props.C13_partial"
   ],
   "note": "False of the code: newtype/tuple variants of internally tagged enums make the schema throw (C13_violated), an optional payload can be left out (C13_violated_missing), empty tuple variants are treated as unit (C13_violated_empty). C13_partial: with those variants excluded (ShapedVariant) the schema accepts exactly the values with serde's shape of one non-skipped variant, for all four representations."
  },
  {
   "property": "C14",
   "status": "partial",
   "theorems": [
    "Verif.Props.C14_declarations",
    "Verif.Props.C14_const",
    "Verif.Props.C14_partial",
    "Verif.Props.C14_invalid",
    "Verif.Props.C14_tuple_struct",
    "Verif.Props.C14_violated"
   ],
   "note": "False of the code as stated (C14_violated, C14_tuple_struct): a tuple struct with several fields gives `export interface X [..]` and a struct with a flattened field gives `export interface X {..} & Y`, neither of which is a TypeScript declaration (C14_invalid: for every such declaration the text is never valid). Proved: generate() writes exactly the two declarations of each member (C14_declarations), every schema constant is valid (C14_const), and every other type declaration is valid, carries the type's name and declares the type the text of its type_def() denotes (C14_partial)."
  },
  {
   "property": "C15",
   "status": "proved",
   "theorems": [
    "Verif.Props.C15_fails_iff",
    "Verif.Props.C15_lines",
    "Verif.Props.C15_comment_block",
    "Verif.Props.C15_one_comment",
    "Verif.Props.C15_mark_not_escaped"
   ],
   "note": ""
  },
  {
   "property": "C16",
   "status": "proved",
   "theorems": [
    "Verif.Props.C16_complete",
    "Verif.Props.C16_idempotent",
    "Verif.Props.C16_decodes"
   ],
   "note": ""
  },
  {
   "property": "C17",
   "status": "proved",
   "theorems": [
    "Verif.Props.C17_blocks_sorted"
   ],
   "note": ""
  },
  {
   "property": "C18",
   "status": "proved",
   "theorems": [
    "Verif.Props.C18_block_contents",
    "Verif.Props.C18_options",
    "Verif.Props.C18_blocks_unique",
    "Verif.Props.C18_outside_ignored"
   ],
   "note": ""
  },
  {
   "property": "C19",
   "status": "proved",
   "theorems": [
    "Verif.Props.C19_order_independent"
   ],
   "note": ""
  },
  {
   "property": "C20",
   "status": "proved",
   "theorems": [
    "Verif.Props.C20_collect",
    "Verif.Props.C20_partition",
    "Verif.Props.C20_views"
   ],
   "note": ""
  },
  {
   "property": "C21",
   "status": "partial",
   "theorems": [
    "Verif.Props.C21_partial",
    "Verif.Props.C21_violated",
    "Verif.Props.C21_violated_shadow",
    "Verif.Props.C21_violated_array"
   ],
   "note": "False of the code: types of namespaces outside the backend are not declared (C21_violated), a type called like a namespace captures references (C21_violated_shadow), a type called Array captures the built-in type (C21_violated_array). C21_partial: holds when these three are excluded."
  },
  {
   "property": "C22",
   "status": "partial",
   "theorems": [
    "Verif.Props.C22_partial",
    "Verif.Props.C22_validation",
    "Verif.Props.C22_violated"
   ],
   "note": "False of the code for functions whose name or arguments are reserved words of JavaScript (C22_violated). C22_partial: for all other programs the module, read as TypeScript, declares exactly the stubs; C22_validation: the validation accepts exactly the argument lists whose elements the schemas accept."
  },
  {
   "property": "C23",
   "status": "proved",
   "theorems": [
    "Verif.Props.C23_client_message",
    "Verif.Props.C23_client_message_members"
   ],
   "note": ""
  },
  {
   "property": "C24",
   "status": "proved",
   "theorems": [
    "Verif.Props.C24_accepted_shapes",
    "Verif.Props.C24_rejected"
   ],
   "note": ""
  },
  {
   "property": "C25",
   "status": "proved",
   "theorems": [
    "Verif.Props.C25_dispatch",
    "Verif.Props.C25_dispatch_other",
    "Verif.Props.C25_method",
    "Verif.Props.C25_stream"
   ],
   "note": ""
  },
  {
   "property": "C26",
   "status": "proved",
   "theorems": [
    "Verif.Props.C26_bad_call",
    "Verif.Props.C26_bad_reasons"
   ],
   "note": ""
  },
  {
   "property": "C27",
   "status": "partial",
   "theorems": [
    "Verif.Props.C27_violated",
    "Verif.Props.C27_zero_args_always_fail",
    "Verif.Props.C27_partial",
    "Verif.Props.C27_exact",
    "Verif.Props.C27_statement_iff"
   ],
   "note": "False of the code: methods without parameters and methods of renamed namespaces can never be called through their stub (C27_violated, C27_zero_args_always_fail). C27_exact: the stub's message is a call of the method with the decoded arguments if and only if the namespace keeps its name and the method has parameters; C27_partial is the sufficient direction, C27_statement_iff says for which backends the property holds."
  },
  {
   "property": "C28",
   "status": "proved",
   "theorems": [
    "Verif.Props.C28_serialization",
    "Verif.Props.C28_id_kept"
   ],
   "note": ""
  },
  {
   "property": "C29",
   "status": "proved",
   "theorems": [
    "Verif.Props.C29_sequential",
    "Verif.Props.C29_progress"
   ],
   "note": ""
  },
  {
   "property": "C30",
   "status": "proved",
   "theorems": [
    "Verif.Props.C30_replies",
    "Verif.Props.C30_replies_caught_up",
    "Verif.Props.C30_reply_of_request"
   ],
   "note": ""
  },
  {
   "property": "C31",
   "status": "proved",
   "theorems": [
    "Verif.Props.C31_stream_items"
   ],
   "note": ""
  },
  {
   "property": "C32",
   "status": "proved",
   "theorems": [
    "Verif.Props.C32_socket_order",
    "Verif.Props.C32_progress"
   ],
   "note": ""
  },
  {
   "property": "C33",
   "status": "proved",
   "theorems": [
    "Verif.Props.C33_cancel_stops"
   ],
   "note": ""
  },
  {
   "property": "C34",
   "status": "partial",
   "theorems": [
    "Verif.Props.C34_violated",
    "Verif.Props.C34_partial",
    "Verif.Props.C34_disjoint_ids_partial"
   ],
   "note": "False of the code: the subscription map is shared by all connections, so a client can cancel another client's stream (C34_violated). Partial theorems: what is aborted is exactly the tracked stream with that id; with ids disjoint between connections the full statement holds."
  },
  {
   "property": "C35",
   "status": "partial",
   "theorems": [
    "Verif.Props.C35_fatal",
    "Verif.Props.C35_violated",
    "Verif.Props.C35_partial"
   ],
   "note": "False of the code: a client that disconnects while its method runs makes the server loop panic (C35_violated). C35_partial: that is the only way a client can stop it, apart from panics of user code. C35_fatal: as soon as a method call whose connection has ended is waiting, no continuation executes anything queued after it, and executing it ends the server task."
  },
  {
   "property": "C36",
   "status": "partial",
   "theorems": [
    "Verif.Props.C36_violated",
    "Verif.Props.C36_partial"
   ],
   "note": "False of the code: reusing the id of a running stream makes the first stream uncancellable (C36_violated). C36_partial: holds while ids are not reused."
  },
  {
   "property": "C37",
   "status": "proved",
   "theorems": [
    "Verif.Props.C37_bookkeeping",
    "Verif.Props.C37_untouched"
   ],
   "note": ""
  },
  {
   "property": "C38",
   "status": "proved",
   "theorems": [
    "Verif.Props.C38_shutdown"
   ],
   "note": ""
  },
  {
   "property": "C39",
   "status": "proved",
   "theorems": [
    "Verif.Props.C39_send",
    "Verif.Props.C39_disconnected_closes"
   ],
   "note": ""
  },
  {
   "property": "C40",
   "status": "proved",
   "theorems": [
    "Verif.Props.C40_bad_frames"
   ],
   "note": ""
  },
  {
   "property": "C41",
   "status": "partial",
   "theorems": [
    "Verif.Props.C41_violated",
    "Verif.Props.C41_partial"
   ],
   "note": "False in the long run: req_id is a double and stops growing at 2^53 (C41_violated). C41_partial: holds for up to 2^53 calls."
  },
  {
   "property": "C42",
   "status": "proved",
   "theorems": [
    "Verif.Props.C42_own_response",
    "Verif.Props.C42_any_history"
   ],
   "note": "C42_own_response: throwing callbacks included, for histories with at most 2^53 calls (distinct ids); C42_any_history: no bound on calls."
  },
  {
   "property": "C43",
   "status": "partial",
   "theorems": [
    "Verif.Props.C43_violated",
    "Verif.Props.C43_error_ignored",
    "Verif.Props.C43_partial",
    "Verif.Props.C43_delivery_ends"
   ],
   "note": "False of the code: error responses are ignored by the client, the promise never settles (C43_violated, C43_error_ignored). C43_partial: method and stream responses settle the promise; C43_delivery_ends: deliveries terminate."
  },
  {
   "property": "C44",
   "status": "partial",
   "theorems": [
    "Verif.Props.C44_violated",
    "Verif.Props.C44_partial",
    "Verif.Props.C44_nothing_else",
    "Verif.Props.C44_after_detach"
   ],
   "note": "False of the code when a callback throws: later callbacks miss the message (C44_violated). C44_partial: exact when no callback throws; C44_nothing_else and C44_after_detach: every history."
  },
  {
   "property": "C45",
   "status": "proved",
   "theorems": [
    "Verif.Props.C45_live"
   ],
   "note": ""
  },
  {
   "property": "C46",
   "status": "proved",
   "theorems": [
    "Verif.Props.C46_in_order"
   ],
   "note": ""
  },
  {
   "property": "C47",
   "status": "partial",
   "theorems": [
    "Verif.Props.C47_dropped_is_lost",
    "Verif.Props.C47_violated",
    "Verif.Props.C47_abandoned",
    "Verif.Props.C47_late_close",
    "Verif.Props.C47_partial",
    "Verif.Props.C47_opening_sends"
   ],
   "note": "False of the code: a failed connection attempt drops the waiting messages (C47_violated, C47_dropped_is_lost), and closing while connecting abandons them (C47_abandoned), as does the close event of the old socket when the call was made between the beginning of its closing and that event (C47_late_close). C47_partial: every call is transmitted at most once, dropped only by failed attempts, else waiting."
  },
  {
   "property": "C48",
   "status": "proved",
   "theorems": [
    "Verif.Props.C48_backoff",
    "Verif.Props.C48_monotone",
    "Verif.Props.C48_reset",
    "Verif.Props.C48_recorded"
   ],
   "note": ""
  },
  {
   "property": "C49",
   "status": "partial",
   "theorems": [
    "Verif.Props.C49_value",
    "Verif.Props.C49_at_most_once",
    "Verif.Props.C49_violated",
    "Verif.Props.C49_partial",
    "Verif.Props.C49_partial_quiet",
    "Verif.Props.C49_connected",
    "Verif.Props.C49_stream",
    "Verif.Props.C49_stream_value",
    "Verif.Props.C49_stream_later"
   ],
   "note": "Safety is proved for every history, failures and foreign clients included (C49_value, C49_at_most_once, C49_stream, C49_stream_value; C49_stream_later: also for callbacks attached later). Liveness is false of the code: the close event of an old socket closes the client's new socket and the response to a pending request is lost without any failure (C49_violated). C49_partial: in histories where a close event never meets a newer socket every transmitted request can be brought to its end; C49_partial_quiet: and it has, in whatever schedule, once nothing is under way; C49_connected: likewise in any history if the connection is alive."
  },
  {
   "property": "C50",
   "status": "partial",
   "theorems": [
    "Verif.Props.C50_violated",
    "Verif.Props.C50_partial",
    "Verif.Props.C50_exact"
   ],
   "note": "False of the code: an untagged enum containing itself through a newtype struct has a schema that calls itself on the same value (C50_violated). C50_partial: terminates for every program in which no type consists of itself through only boxes, newtypes, options, conversions and untagged alternatives. C50_exact: if the module loads, this condition is necessary and sufficient (otherwise validating NaN does not end)."
  },
  {
   "property": "C51",
   "status": "partial",
   "theorems": [
    "Verif.Props.C51_skip_if",
    "Verif.Props.C51_module_partial",
    "Verif.Props.C51_partial",
    "Verif.Props.C51_none",
    "Verif.Props.C51_set",
    "Verif.Props.C51_map",
    "Verif.Props.C51_nan",
    "Verif.Props.C51_phantom",
    "Verif.Props.C51_internal_newtype",
    "Verif.Props.C51_violated"
   ],
   "note": "False of the code as stated (C51_violated): None and NaN are written as null, sets as arrays, maps as objects, PhantomData as null, newtype variants of internally tagged enums with the tag next to the payload (C51_none, C51_nan, C51_set, C51_map, C51_phantom, C51_internal_newtype); fields that skip_serializing_if leaves out, unless the macro sees that they are optional (C51_skip_if); none of these is a value of the generated type. C51_partial: holds for all other values, flattened fields included. C51_module_partial: the same about the types of the written module."
  },
  {
   "property": "C52",
   "status": "partial",
   "theorems": [
    "Verif.Props.C52_partial",
    "Verif.Props.C52_violated",
    "Verif.Props.C52_grammar"
   ],
   "note": "False of the code: a function (or argument) called like a reserved word of JavaScript, a documentation with an end-of-comment mark, or a type declared as interface that is no object type (C14) makes the module invalid (C52_violated). C52_partial: exact contents for all programs without those. C52_grammar: the same in terms of the declarative grammar of modules (Spec/ModuleGrammar.lean, with semicolon insertion), which leaves no choice; readModule is proved equivalent to it (readModule_iff)."
  },
  {
   "property": "C53",
   "status": "partial",
   "theorems": [
    "Verif.Props.C53_partial",
    "Verif.Props.C53_violated",
    "Verif.Props.C53_violated_request"
   ],
   "note": "False of the code: an argument called z (C53_violated) or a method called request (C53_violated_request) captures the name. C53_partial: holds if nothing in the program is called z, request or subscribe."
  },
  {
   "property": "C54",
   "status": "proved",
   "theorems": [
    "Verif.Props.C54_accepts_iff",
    "Verif.Props.C54_accepts"
   ],
   "note": ""
  },
  {
   "property": "C55",
   "status": "partial",
   "theorems": [
    "Verif.Props.C55_partial",
    "Verif.Props.C55_exact",
    "Verif.Props.C55_violated"
   ],
   "note": "False of the code: a type and a function with the same name clash (C55_violated). C55_partial: holds otherwise; C55_exact: the names declared in each namespace, computed from the program, are distinct if and only if the module is without clashes."
  },
  {
   "property": "C56",
   "status": "partial",
   "theorems": [
    "Verif.Props.C56_violated",
    "Verif.Props.C56_partial"
   ],
   "note": "False of the code: the history of C49_violated also stops the server (C56_violated). C56_partial: holds in every history where a close event never meets a newer socket."
  },
  {
   "property": "C57",
   "status": "partial",
   "theorems": [
    "Verif.Props.C57_violated_deny",
    "Verif.Props.C57_violated_alias",
    "Verif.Props.C57_partial",
    "Verif.Props.C57_method_partial",
    "Verif.Props.C57_violated"
   ],
   "note": "False of the code (C57_violated): the stub validates its arguments but sends them as they are, so properties unknown to the schema are sent too; next to the tag of an externally tagged enum, in types with deny_unknown_fields (C57_violated_deny), and if they are called like the alias of a field that is present (C57_violated_alias), serde does not accept them. C57_partial: holds for the types of C04 in programs without deny_unknown_fields and alias, methods with arguments in namespaces that are not renamed (C27), values without infinite numbers and lone surrogates, if nothing was removed from objects of which one property was kept; C57_method_partial: and then the method runs and its result is the reply."
  },
  {
   "property": "C58",
   "status": "partial",
   "theorems": [
    "Verif.Props.C58_partial",
    "Verif.Props.C58_module_partial",
    "Verif.Props.C58_violated",
    "Verif.Props.C58_violated_name",
    "Verif.Props.C58_violated_rejected"
   ],
   "note": "False of the code in both directions: the check compares Rust names while the module uses serde names, so a type renamed to the name of another compiles (C58_violated) and types with one Rust name but different serde names are rejected (C58_violated_rejected); namespaces with one NAME are not compared (C58_violated_name). C58_partial: holds if no type is renamed and no two namespaces have one NAME; C58_module_partial: then nothing is declared twice in the module (C55)."
  },
  {
   "property": "C59",
   "status": "partial",
   "theorems": [
    "Verif.Props.C59_partial",
    "Verif.Props.C59_violated",
    "Verif.Props.C59_violated_browser",
    "Verif.Props.C59_grammar"
   ],
   "note": "False of the code: a namespace called like a value of the client code (CONNECTION, execute, ...) is declared twice (C59_violated), one called Set, Promise, JSON, ... hides the value of the browser that the client code uses when it is loaded (C59_violated_browser). C59_partial: for every printable program the whole file reads as the client's declarations followed by the module of C52, and the top level is in order exactly if no populated namespace has one of these names. The list of browser values is read off the client code (each occurs in it: clientText_browser); nested scopes of the client code are not analysed. C59_grammar: the same in terms of the grammar: text with matching brackets followed by the namespaces."
  },
  {
   "property": "C60",
   "status": "partial",
   "theorems": [
    "Verif.Props.C60_partial",
    "Verif.Props.C60_call_partial",
    "Verif.Props.C60_violated",
    "Verif.Props.C60_fair_partial",
    "Verif.Props.C60_fair_stream_partial"
   ],
   "note": "False of the code where C51 is: a method that returns None resolves the promise with null, the declared type is string | undefined (C60_violated). C60_partial: holds in every history (failures, other clients and any schedule included) for functions whose result type is written as its TypeScript type says (TypedDecl, Typed: no Option, sets, maps, ... outside of fields that serde may leave out), in backends whose namespaces keep their names. C60_call_partial: a call accepted by validation is executed once with the decoded arguments, and its promise has resolved with the result, of the declared type, once nothing is under way, in histories without failures, in programs without deny_unknown_fields. C60_fair_partial, C60_fair_stream_partial: in executions that go on for ever, lose nothing and are fair, the method does get executed, and the promise resolves with its result, or the callback is called with the items in order."
  },
  {
   "property": "C61",
   "status": "partial",
   "theorems": [
    "Verif.Props.C61_unread_partial",
    "Verif.Props.C61_partial",
    "Verif.Props.C61_cancelled_partial",
    "Verif.Props.C61_leak",
    "Verif.Props.C61_violated",
    "Verif.Props.C61_waiting"
   ],
   "note": "False of the code (C61_violated): entries of streams that ended by themselves are never removed, and C61_leak: clients that call a stream function and leave make the table grow without bound. C61_waiting: a stream that waits for its next item is not ended when its client leaves. Proved: the stream of a client that has left takes at most one more item and then ends, and sends nothing (C61_partial); if every id a stream was started with has been cancelled, the table is empty (C61_cancelled_partial). Unread responses are dropped when the connection ends (C61_unread_partial)."
  },
  {
   "property": "C62",
   "status": "partial",
   "theorems": [
    "Verif.Props.C62_partial",
    "Verif.Props.C62_default",
    "Verif.Props.C62_references",
    "Verif.Props.C62_violated"
   ],
   "note": "False of the code (C62_violated): references keep the names without prefixes and suffixes. C62_references: whenever references resolve, each derived type that is an argument must have, in its namespace, a type whose affixed name is its own name. C62_partial: declarations are as stated, for all options. C62_default: empty options are the same as none."
  },
  {
   "property": "C63",
   "status": "partial",
   "theorems": [
    "Verif.Props.C63_violated_calm",
    "Verif.Props.C63_violated_socket",
    "Verif.Props.C63_violated",
    "Verif.Props.C63_partial",
    "Verif.Props.C63_partial_sent",
    "Verif.Props.C63_stream",
    "Verif.Props.C63_deliveries"
   ],
   "note": "False of the code (C63_violated): a request made while a pending socket is being closed is dropped with that socket (C63_violated_calm), and the close event of an old socket closes the new one (C63_violated_socket). C63_partial: holds if no close event reaches a client with a new socket and the client has a socket after the call. C63_partial_sent: holds for every request that gets transmitted some time. C63_stream: the callback of a stream gets every item. C63_deliveries: the fairness assumption about deliveries follows from the runtime calling subscriptions, if no delivery makes infinitely many of them."
  },
  {
   "property": "C64",
   "status": "partial",
   "theorems": [
    "Verif.Props.C64_partial",
    "Verif.Props.C64_partial_builtin",
    "Verif.Props.C64_violated",
    "Verif.Props.C64_missing",
    "Verif.Props.C64_violated_complete",
    "Verif.Props.C64_missing_shapes",
    "Verif.Props.C64_titles",
    "Verif.Props.C64_violated_named",
    "Verif.Props.C64_named_partial",
    "Verif.Props.C64_document",
    "Verif.Props.C64_links"
   ],
   "note": "False of the code: the row of Vec<T> (and of all other containers) does not show the schema at a derived type, which is a reference (C64_violated); IP addresses, SmolStr, NotNan, arrays and tuples have no row (C64_missing, C64_missing_shapes, C64_violated_complete); the row of Result<T, E> mentions U, the rows of maps T and U instead of T1 and U2 (C64_violated_named). C64_partial: every row is right at every two types of every program if containers get the inline schema and smart pointers the schema. C64_partial_builtin: as stated for types that are not derived. C64_named_partial: the names are right in all other rows. C64_document: the Markdown shows each row. C64_links: every heading leads to the page of its type. C64_titles: every row has Rust's name for its type."
  },
  {
   "property": "C65",
   "status": "partial",
   "theorems": [
    "Verif.Props.C65_exact",
    "Verif.Props.C65_violated",
    "Verif.Props.C65_partial",
    "Verif.Props.C65_violated_arguments",
    "Verif.Props.C65_chain",
    "Verif.Props.C65_delivered",
    "Verif.Props.C65_string",
    "Verif.Props.C65_alike"
   ],
   "note": "False of the code: the server reads at most 127 arrays and objects in each other (serde_json's limit), the client writes any number (C65_violated); so a user with a chain of 62 friends passes the validation, serde writes it, and it cannot be sent: the server answers without id and the promise stays pending (C65_violated_arguments; with 61 friends it can, C65_chain). C65_exact: exactly which documents arrive. C65_partial: requests arrive as the frames of the system model iff no argument nests more than 124. C65_delivered: C57 holds of texts. C65_string: strings with lone surrogates are rejected, all others arrive."
  },
  {
   "property": "C66",
   "status": "proved",
   "theorems": [
    "Verif.Props.C66_exact",
    "Verif.Props.C66_string"
   ],
   "note": "C66_exact for all documents whose doubles are written so that reading undoes it (the formatting of doubles is a parameter); C66_string: the client gets the UTF-16 code units of the text."
  },
  {
   "property": "C67",
   "status": "partial",
   "theorems": [
    "Verif.Props.C67_lost",
    "Verif.Props.C67_lost_stream",
    "Verif.Props.C67_lost_stream_later",
    "Verif.Props.C67_not_resent",
    "Verif.Props.C67_violated",
    "Verif.Props.C67_partial",
    "Verif.Props.C67_unknown"
   ],
   "note": "False of the code: the client never sends a call again (C67_not_resent), so a promise that is open when its connection is lost never resolves (C67_lost, C67_violated), no callback of a store is called any more, whether attached before (C67_lost_stream) or later (C67_lost_stream_later), and the client cannot tell whether the request was executed (C67_unknown). C67_partial: in every history, with any losses, a request transmitted on a connection that is alive can be brought to its end, unless the server has died or has requests of ended connections (which are fatal: C35_fatal)."
  },
  {
   "property": "C68",
   "status": "partial",
   "theorems": [
    "Verif.Props.C68_never_cancelled",
    "Verif.Props.C68_never_stopped",
    "Verif.Props.C68_goes_on",
    "Verif.Props.C68_violated",
    "Verif.Props.C68_last",
    "Verif.Props.C68_partial"
   ],
   "note": "False of the code (C68_violated): removing the callback of a store tells the server nothing. A generated client never sends cancelStream (C68_never_cancelled), so among generated clients no stream is ever stopped (C68_never_stopped) and it goes on producing responses nobody sees (C68_goes_on). Proved: when the callback was the last subscription of its client, the connection is closed (C68_last) and, once the server has noticed, the stream takes at most one more item and ends (C68_partial). Missing: a client with other subscriptions."
  },
  {
   "property": "C69",
   "status": "proved",
   "theorems": [
    "Verif.Props.C69_server",
    "Verif.Props.C69_client",
    "Verif.Props.C69_unique",
    "Verif.Props.C69_unique_client",
    "Verif.Props.C69_request",
    "Verif.Props.C69_rejected",
    "Verif.Props.C69_layout",
    "Verif.Props.C69_written"
   ],
   "note": "C69_server and C69_client: the readers of the model accept exactly the texts of the grammar in Spec/Rfc8259.lean, with the document the grammar gives (white space, escapes, surrogate pairs, number forms, i64/u64 or double, nesting). C69_unique(_client): one meaning. C69_request, C69_rejected: what the server makes of a frame. C69_layout, C69_written. Trusted: that serde_json and JSON.parse implement this grammar, which is outside /repo. Rounding to doubles is a parameter; values serde skips unread are taken to be read."
  },
  {
   "property": "C70",
   "status": "partial",
   "theorems": [
    "Verif.Props.C70_violated",
    "Verif.Props.C70_unnoticed",
    "Verif.Props.C70_document",
    "Verif.Props.C70_narrow",
    "Verif.Props.C70_partial",
    "Verif.Props.C70_text",
    "Verif.Props.C70_violated_untagged"
   ],
   "note": "C70_violated: integers beyond 2^53 (u64, i64, ...) are rounded by JSON.parse, pass validation and come back changed, which the server does not notice (C70_unnoticed). C70_violated_untagged: Num::Real(5.0) of an untagged enum comes back as 5 and is read as Num::Whole(5). C70_document, C70_text: every document whose integers are at most 2^53 comes back as the same document, also as texts. C70_narrow: so do all values of types without integers of more than 32 bits. C70_partial: for the types of C05 that can be read again (no &str, no 128 bit integers, no try_from, no alias that is the name of another field), the value also passes validation and serde accepts what comes back. Missing: floating point numbers that are integers beyond 2^53, where the shortest digits JavaScript prints are not modelled."
  },
  {
   "property": "C71",
   "status": "partial",
   "theorems": [
    "Verif.Props.C71_refute",
    "Verif.Props.C71_violated",
    "Verif.Props.C71_violated_infinity",
    "Verif.Props.C71_map",
    "Verif.Props.C71_partial",
    "Verif.Props.C71_discrete_partial"
   ],
   "note": "False of the code: every map with text keys is sent as {} and accepted as the empty map (C71_violated, C71_map: for all programs, value types and maps); Infinity and -Infinity passed for an Option<f64> both arrive as None (C71_violated_infinity). Proved: values without maps, sets and non-finite numbers that are sent as the same document are equal up to undefined (C71_partial); in programs without map, set and float types this holds for everything that validation returns (C71_discrete_partial)."
  },
  {
   "property": "C72",
   "status": "partial",
   "theorems": [
    "Verif.Props.C72_responses",
    "Verif.Props.C72_requests",
    "Verif.Props.C72_violated",
    "Verif.Props.C72_stream",
    "Verif.Props.C72_partial"
   ],
   "note": "False of every service: all channels are unbounded, so one client that sends without reading (C72_responses), sends while a method runs (C72_requests), or calls one endless stream (C72_stream) makes the server hold any number of messages (C72_violated). Proved: for a connection without streams, responses held and written are at most the requests executed, so a client that waits for each response makes the server hold at most one (C72_partial); nothing is held for connections that have ended (C61_unread_partial)."
  },
  {
   "property": "C73",
   "status": "proved",
   "theorems": [
    "Verif.Props.C73_real_time",
    "Verif.Props.C73_values",
    "Verif.Props.C73_linearizable",
    "Verif.Props.C73_stream"
   ],
   "note": ""
  },
  {
   "property": "C74",
   "status": "partial",
   "theorems": [
    "Verif.Props.C74_violated",
    "Verif.Props.C74_partial",
    "Verif.Props.C74_requests_partial"
   ],
   "note": "False of the code (C74_violated): the client closes its socket when no subscription is left, even if the request of a stream without callback is still on its way; the next call uses a new connection, which the server may read first. Proved: calls on one connection are executed in order, in every history (C74_partial); in calm histories a request is never overtaken by a later call of its client, whatever connections they use (C74_requests_partial)."
  },
  {
   "property": "C75",
   "status": "proved",
   "theorems": [
    "Verif.Props.C75_checked",
    "Verif.Props.C75_generated",
    "Verif.Props.C75_axum"
   ],
   "note": ""
  },
  {
   "property": "C76",
   "status": "proved",
   "theorems": [
    "Verif.Props.C76_same_values",
    "Verif.Props.C76_reference",
    "Verif.Props.C76_returns",
    "Verif.Props.C76_converse_false"
   ],
   "note": "C76_same_values (schema() with schema(), inline_schema() with inline_schema()), C76_reference (a written-out type and the reference that takes its place), C76_returns (termination carries over), C76_converse_false (the converse of the last: Option<Box<Node>> inside Node never returns, Option<Node> does). What serde accepts is another matter: PhantomData is null there (C04_violated_phantom)."
  },
  {
   "property": "C77",
   "status": "partial",
   "theorems": [
    "Verif.Props.C77_violated",
    "Verif.Props.C77_untagged_violated",
    "Verif.Props.C77_partial",
    "Verif.Props.C77_returned_partial"
   ],
   "note": "False as stated (C77_violated: the schema of Result<Option<u8>, String> makes { Err: 'e' } of { Ok: 'no number', Err: 'e' } and then {} of { Err: 'e' }; C77_untagged_violated: untagged enums). Proved for programs whose enums with more than one case are tagged, where the cases of externally tagged enums and the first case of every Result are not accepted when they are missing: nothing that was returned is rejected, and whatever is returned for it is itself (C77_partial); if validation ends (the condition of C50), it is returned (C77_returned_partial)."
  },
  {
   "property": "C78",
   "status": "proved",
   "theorems": [
    "Verif.Props.C78_same_values",
    "Verif.Props.C78_read",
    "Verif.Props.C78_condition_needed"
   ],
   "note": "C78_same_values (what schema() and inline_schema() accept, return and reject, in the modules of both programs), C78_read (what serde reads; the rules of serde that are modelled do not include arrays for structs with named fields, which a field in the middle would change), C78_condition_needed (with a property of a new name the two differ, since unknown properties are dropped and those of a field are validated)."
  },
  {
   "property": "C79",
   "status": "proved",
   "theorems": [
    "Verif.Props.C79_not_rejected",
    "Verif.Props.C79_accepted",
    "Verif.Props.C79_read",
    "Verif.Props.C79_result_changes",
    "Verif.Props.C79_condition_needed"
   ],
   "note": "C79_not_rejected (no schema rejects what it accepted before), C79_accepted (it accepts it, if no type of the new program is made of itself through boxes, newtypes, options, conversions and untagged enums only), C79_read (serde, if the variants of each enum have different names), C79_result_changes (what is returned may change: a new untagged variant in front matches first and drops properties), C79_condition_needed (validating may not end any more). For tagged enums with a single old variant the schema changes from an object to a discriminated union; the theorem covers this."
  },
  {
   "property": "C80",
   "status": "proved",
   "theorems": [
    "Verif.Props.C80_same_run",
    "Verif.Props.C80_same_frames",
    "Verif.Props.C80_clients",
    "Verif.Props.C80_names_needed"
   ],
   "note": "C80_same_run (the whole state of the server except the new namespaces), C80_same_frames (what is written to each client), C80_clients (whole projects: the clients generated for the old backend, their sockets, and either server; the same labels are possible and the clients are in the same states), C80_names_needed (a request can also give the number of a function in place of its name, and a new function in front changes the numbers: the request calls another function). Frames that are no requests, cancellations and calls with wrong arguments are included."
  },
  {
   "property": "C81",
   "status": "proved",
   "theorems": [
    "Verif.Props.C81_accepted",
    "Verif.Props.C81_rejected",
    "Verif.Props.C81_read",
    "Verif.Props.C81_converse_fails",
    "Verif.Props.C81_result_changes",
    "Verif.Props.C81_deny_needed"
   ],
   "note": "C81_accepted (no condition on names, defaults or recursion: if validating with the new schema accepts, validating with the old one ends and accepts), C81_rejected (the same the other way around), C81_read (serde; declarations with deny_unknown_fields or flattened fields get no new fields, and the types used are declared), C81_converse_fails (values without a new required field are rejected), C81_result_changes (the old schema drops the new properties), C81_deny_needed (with deny_unknown_fields serde rejects documents with the new members)."
  },
  {
   "property": "C82",
   "status": "proved",
   "theorems": [
    "Verif.Props.C82_new_is_old",
    "Verif.Props.C82_old_is_new",
    "Verif.Props.C82_default_needed",
    "Verif.Props.C82_no_new_variants",
    "Verif.Props.C82_names_needed"
   ],
   "note": "C82_new_is_old (new fields of any kind and new types; no condition on values), C82_old_is_new (new fields with a default, new variants, new types; values without properties of the names of new fields), both for the strict and the lenient reading of missing properties; the types used in the old program are declared in it. C82_default_needed, C82_no_new_variants and C82_names_needed: concrete programs and values that show that the conditions are needed."
  },
  {
   "property": "C83",
   "status": "partial",
   "theorems": [
    "Verif.Props.C83_partial",
    "Verif.Props.C83_reference_partial",
    "Verif.Props.C83_violated"
   ],
   "note": "False of the code as stated: a flattened Box<enum> is written out behind `&` and falls apart, the reference to the enum does not (C83_violated). C83_partial (type_def() with type_def(), inline() with inline()) and C83_reference_partial (a written-out type and the reference that takes its place): the same values whenever no flattened field without default has a text that falls apart in the program with wrappers; that nothing falls apart without them is derived, not assumed."
  },
  {
   "property": "C84",
   "status": "partial",
   "theorems": [
    "Verif.Props.C84_exact",
    "Verif.Props.C84_unreadable",
    "Verif.Props.C84_partial",
    "Verif.Props.C84_violated"
   ],
   "note": "False of the code: on a struct variant without fields to read (`V {}`) and on a tuple struct without fields to read (`struct S();`) the macro panics (C84_violated); serde reads both. C84_exact: for every declaration with parsable attributes, which message is reported, when the macro panics, and that it succeeds otherwise. C84_partial: the statement for all declarations but those. C84_unreadable: attributes that cannot be read are reported before anything else."
  },
  {
   "property": "C85",
   "status": "proved",
   "theorems": [
    "Verif.Props.C85_same_values",
    "Verif.Props.C85_returns",
    "Verif.Props.C85_derives",
    "Verif.Props.C85_read",
    "Verif.Props.C85_types",
    "Verif.Props.C85_types_flattened_order"
   ],
   "note": "C85_same_values (no hypothesis that the modules load: where evaluating throws, it throws for both), C85_returns (generation returns for both or for neither, schemas and TypeScript types), C85_derives (the macro accepts both or neither), C85_read (serde's rules for objects; from arrays serde reads named fields in their order, which the rules do not cover). C85_types: the TypeScript types have the same values if flattened fields keep their relative order; C85_types_flattened_order shows that this is needed: unions are not put in parentheses (C07), so the order of flattened fields decides what `&` and `|` group."
  },
  {
   "property": "C86",
   "status": "proved",
   "theorems": [
    "Verif.Props.C86_acceptance",
    "Verif.Props.C86_same_values",
    "Verif.Props.C86_returns",
    "Verif.Props.C86_derives",
    "Verif.Props.C86_read",
    "Verif.Props.C86_external_results_differ",
    "Verif.Props.C86_types",
    "Verif.Props.C86_types_flattened_order"
   ],
   "note": "C86_acceptance (all enums; stated as: never accepted by one order and rejected by the other, because an option that validates forever may come before or after the one that accepts), C86_same_values (tagged enums: same results up to the order of properties, same rejections), C86_external_results_differ (why the latter is about tagged enums: an externally tagged enum where the two orders accept the same object with different results), C86_returns, C86_derives, C86_read. C86_types: the TypeScript types have the same values if no struct has flattened fields; C86_types_flattened_order shows that flattened fields break this: a flattened `Box` of an enum is not put in parentheses (C07)."
  },
  {
   "property": "C87",
   "status": "proved",
   "theorems": [
    "Verif.Props.C87_same_results",
    "Verif.Props.C87_returns",
    "Verif.Props.C87_derives",
    "Verif.Props.C87_read",
    "Verif.Props.C87_types"
   ],
   "note": "C87_same_results (schemas: the same results, not just up to order; no hypothesis that the modules load), C87_types (TypeScript types), C87_returns (all four methods), C87_derives, C87_read. References in the model are places in the program, so they follow the renaming. Two declarations with one name in one namespace are excluded by the hypothesis that both modules exist (IsModule, IsTsModule) unless they mean the same; C58 is about such collisions."
  },
  {
   "property": "C88",
   "status": "partial",
   "theorems": [
    "Verif.Props.C88_partial",
    "Verif.Props.C88_registers",
    "Verif.Props.C88_texts",
    "Verif.Props.C88_derives",
    "Verif.Props.C88_read",
    "Verif.Props.C88_violated"
   ],
   "note": "C88_violated: documentation is not escaped, so `/// */ export const evil = z.string() /*` declares a constant in the generated module, which is still valid TypeScript (exEvil_declares). C88_partial: the modules are the same, with any options, if no documentation contains an end-of-comment mark and the names of the program can be written into JavaScript. C88_registers: the hypothesis on the two registries is met by builds of any two such programs. C88_texts, C88_derives and C88_read hold for all readable documentation."
  },
  {
   "property": "C89",
   "status": "proved",
   "theorems": [
    "Verif.Props.C89_registered",
    "Verif.Props.C89_same_module",
    "Verif.Props.C89_declarations"
   ],
   "note": "C89_registered (no hypothesis on names), C89_same_module (the declarations of each namespace are a permutation), C89_declarations. Programs that cannot be printed have no module (C52); documentation with an end-of-comment mark is excluded (C88)."
  },
  {
   "property": "C90",
   "status": "proved",
   "theorems": [
    "Verif.Props.C90_reference",
    "Verif.Props.C90_schema",
    "Verif.Props.C90_type",
    "Verif.Props.C90_serde",
    "Verif.Props.C90_written"
   ],
   "note": "C90_reference (written or referred to), C90_schema, C90_type, C90_serde (reading), C90_written (writing). Fields with `default` or `flatten` are not aliases: their schemas are optional or broken (C04, C05). For `try_from` nothing is claimed about serde."
  },
  {
   "property": "C91",
   "status": "proved",
   "theorems": [
    "Verif.Props.C91_schema",
    "Verif.Props.C91_type",
    "Verif.Props.C91_serde",
    "Verif.Props.C91_written"
   ],
   "note": "C91_schema (for modules whose constants all load), C91_type, C91_serde (no `try_from`), C91_written (aliases are written as they are read). Keys of maps are not replaced."
  },
  {
   "property": "C92",
   "status": "proved",
   "theorems": [
    "Verif.Props.C92_schema",
    "Verif.Props.C92_exports",
    "Verif.Props.C92_read",
    "Verif.Props.C92_read_iff",
    "Verif.Props.C92_written",
    "Verif.Props.C92_written_iff",
    "Verif.Props.C92_missing_changes"
   ],
   "note": "C92_schema and C92_exports, for two modules whose constants all load. C92_read and C92_read_iff for what serde reads (no `try_from`, not PhantomData); C92_missing_changes shows that the condition on missing fields is needed: a missing field of type Option is read, a missing newtype around an Option is not. The condition that the replacing type is not a string is due to the model, which reads maps with keys of type String and SmolStr only; it is not shown to be needed of serde. C92_written and C92_written_iff for what serde writes; types in `into` are not replaced and may not mention the alias; the conditions that the replacing type is no Option and no string are again not shown to be needed. TypeScript types are not covered."
  }
 ]
}