# Design of the formal model of nicolaiunrein/zod

## What the code does

* `core/src/build_ins.rs`, `core/src/lib.rs`: trait `ZodType` gives, per Rust type, a zod schema *text*
  (`schema`, `inline_schema`) and a TypeScript type *text* (`type_def`, `inline`).
* `derive/`: macros computing those texts for user structs/enums from serde attributes, and the request
  enums/dispatch code for rpc namespaces and backends.
* `core/src/rpc`: the wire types, the code generator (`generate_with_options`), the subscriber map.
* `src/rpc/servers`: the single-task server (`BackendProxy`) and the axum websocket pump.
* `src/rpc/clients/static/websocket_client.ts`: the generated client runtime.

## Shape of the model (Lean 4, `/verif/lean/Verif`)

Strings are `List Char` (`Str`). Four kinds of modules:

**Models of the code** (every definition cites the lines it models):

| module | models |
|---|---|
| `Schema.Types`, `Schema.Derive`, `Schema.Eval` | Rust types, serde-annotated declarations, `derive/src/impl_struct.rs`, `derive/src/impl_enum/**` as functions from declarations to texts with calls (compile-time aborts and panics are explicit errors); `core/src/build_ins.rs`; execution of the texts with fuel |
| `Derive.Docs` | `derive/src/docs.rs`, `escape` of `core/src/docs.rs` |
| `Schema.Table` | `core/src/docs.rs` |
| `Codegen.Generate`, `Codegen.Members`, `Codegen.Rpc` | `core/src/rpc/server.rs` (generation), `core/src/rpc/codegen/mod.rs`, `core/src/lib.rs`, `derive/src/impl_inventory.rs`, `derive/src/rpc/args.rs`, `derive/src/rpc/impl_rpc.rs:61-127` |
| `Rpc.Wire`, `Rpc.Dispatch` | `core/src/rpc/mod.rs`, `core/src/rpc/error.rs`, the request enums and dispatch of `derive/src/rpc/{impl_rpc,backend_impl}.rs` |
| `Rpc.Server` | `src/rpc/servers/{proxy,axum}.rs`, `handle_request`, stream tasks, `SubscriberMap`: a labelled transition system |
| `Client.Model` | `src/rpc/clients/static/websocket_client.ts`: an event-driven state machine |
| `System.Model` | any number of generated and foreign clients, the network, and the server together |

**Models of the environment** (not code of the repository; assumptions, see below):

| module | says |
|---|---|
| `Js.{Num,Value,Lexer,Parser,Source,Uses}` | JavaScript numbers, values, JSON, tokens, comments, the expressions in generated code |
| `Zod.{Schema,Parse}` | what the zod calls in generated code construct, when they throw, what parsing accepts and returns |
| `Text.{Utf16,Print,Parse}` | code units, printing and reading of JSON texts by JavaScript and serde_json |
| `Ts.Parser`, `Spec.{Module,TsTypes,Scope}` | TypeScript types, modules, name resolution, which values inhabit a type |
| `Spec.Grammar`, `Spec.ModuleGrammar` | the grammars of tokens, comments, expressions, types and modules (with semicolon insertion) as productions; the readers `lex`, `source`, `readExpr`, `readType`, `readModule` are proved equivalent to them (`lex_iff`, `source_iff`, `readExpr_iff`, `readType_iff`, `readModule_iff`), so their code need not be trusted |
| `Spec.{Serde,Ser}` | which documents serde's derived implementations accept, and which they write |

**Specifications** `Spec.*`: the vocabulary of the property theorems, independent of the model's helpers.

**Checks** `Check.*`: Boolean functions that imply the hypotheses of the theorems (C75).

**Proof helpers**: the remaining modules (`*Lemmas`, `*Inv*`, `Zod.*`, `Ts.*`, `System.*`).

**Properties** `Props.*`: the property theorems and their non-vacuity examples, nothing else.

## Plan per property

| property | modelled | proof |
|---|---|---|
| C01, C02 | the literal schema texts, read by the JS parser; numbers as exact rationals, literals rounded to double | inversion of acceptance; monotonicity of rounding |
| C03, C07 | all templates; lexer as a character fold, LL(1) token parsers | induction on evaluation: the generated text lexes and parses to a described tree; the readers accept exactly the productions of `Spec/Grammar.lean`, by an invariant over the parser's stack |
| C04, C05, C13, C50 | zod acceptance/parse, serde accept/produce relations | induction on parsing/serialization derivations over mutually recursive programs; counterexamples by concrete witnesses |
| C06 | TypeScript membership | induction on parsing |
| C51 | what serde writes, TypeScript membership | mutual induction on serialization; flattened parts are seen with more members than their own |
| C57 | validation, stubs, JSON.stringify, serde, dispatch | induction on parsing (the value itself, not the parse result, is accepted by serde), composed with C22, C23, C25, C27 |
| C08 | fuel evaluator, call graph | accessibility of the call graph iff some fuel suffices; cycles have none |
| C09-C12, C14 | derive functions | structural / list induction |
| C15, C16 | `docs.rs`, `escape` | list induction |
| C17-C20 | codegen | sorted association-list (BTreeMap) invariants, list permutations |
| C21, C22, C52-C55 | the whole generated module, read by a TypeScript module reader; scopes | reading lemmas composed over all members; name analysis |
| C58 | registration constants and registered names of a crate; rustc's check for duplicate constants | injectivity of names, list induction |
| C59 | the text of the client code and the generated namespaces as one file; a reader for top-level declarations (`Spec/File.lean`) | the lexer runs over the client code (evaluated by the kernel) and is compositional; C52 for the rest |
| C60 | the types and schemas that the generated module declares (`Spec/Backend.lean`), a backend whose methods return what serde writes for their Rust types, the product system of C49 | C49 (the value is a result of the call), C25 (the call reached the method of that name), C51 (the result is a value of the TypeScript type), C52 (the types of the module are those of the program); for complete calls also C57 and C49_partial_quiet; on a fair network C63 (`Props/FairCalls.lean`) |
| C61 | the transition system of C29-C40 (subscriber table, stream tasks, connections) | invariants over all continuations; violation and unbounded growth by explicit traces, by induction on the number of clients |
| C62 | `generate_with_options` with any options, read by the module reader of C52 | the reading lemmas of C52, generalised to affixed names; what references need, by analysis of the stub of a function; violation by a concrete program |
| C63 | infinite executions of the product system of C49, weak and strong fairness of single labels (`Spec/Fair.lean`) | one variant per stage (socket accepted, frame delivered, request executed, response written, response delivered, item yielded), each rising by weak or strong fairness, on top of the invariants of C49; violations by concrete histories after which nothing fairness requires can happen |
| C64 | `Schema/Table.lean`: the rows of `generate()` with the impls of the placeholder types; `Spec/Table.lean`: replacing names in a text, types with parameters, reading the Markdown back | the evaluation of each row at arbitrary types of an arbitrary program; the document itself is a constant and computed |
| C65 | `Text/Print.lean`: `JSON.stringify`/`serde_json::to_string` as printers, `Text/Parse.lean`: serde_json's reader with its depth limit, `JSON.parse` without; `Spec/Text.lean`: nesting of a document | induction over documents: reading what was printed gives the document and the rest of the text, or fails exactly at the limit |
| C66 | as C65, in the other direction | the same induction; the length of a text bounds the nesting of its document |
| C67 | the product system of C49; a lost connection is a socket that is closing or closed (`Spec/Lost.lean`) | a closed socket never opens again and answers bear ids of messages sent on their own connection, so by induction over all continuations nothing arrives for a lost call; for what holds: the variant of C49's liveness, without calmness, from a state in which the server has no requests of ended connections |
| C68 | the product system of C49; nobody listens: no subscription of the client has the id of the store (`Spec/Unheard.lean`) | requests on connections of generated clients are calls (as in C49), so no `cancelStream` is ever accepted, and by induction over the server's steps no task is ever aborted; the closed connection of a client without subscriptions and C61 for what holds |
| C69 | `Spec/Rfc8259.lean`: RFC 8259 as inductive relations (white space, strings by UTF-16 code units, numbers, values with nesting); the readers are `Text/Parse.lean` | soundness by induction on the depth and the number of elements, completeness by mutual induction over derivations (`Text/Grammar.lean`, `Text/GrammarValues.lean`) |
| C70 | `JSON.stringify` after `JSON.parse` (`Js/Value.lean`), what serde writes and reads (`Spec/Ser.lean`, `Spec/Serde.lean`), texts (C65, C66); `Spec/Echo.lean`: the same document, types that can be read again | induction over documents (`Js/Echo.lean`) and mutual induction over what serde writes (`Zod/Returned.lean`) |
| C71 | `JSON.stringify` (`Js/Value.lean`), schemas (`Zod/`), what serde reads (`Spec/Serde.lean`); `Spec/Args.lean`: values up to `undefined`, values and types without maps, sets and floats | false for maps and infinities (witnesses; `C71_map` for all maps); otherwise a left inverse of `stringify` (`Zod/Args.lean: tidy_exactly`) and induction over schemas and parsing for discrete types |
| C72 | the server (`Rpc/Server.lean`) | false: executions that grow without bound, for every service; otherwise by counting, from C30–C32 |
| C73 | the whole system (`System/Model.lean`); `Spec/Order.lean` | the log of executed requests only grows; a new call is not in it (`System/Order.lean`); what was answered is in it (C49). `C73_linearizable`: every resolved call has a place of its own in the log, its answer is what the method gives there, and places respect real time |
| C74 | the whole system; `Spec/Order.lean` | false (witness); otherwise an invariant of the client, the messages of a socket are in call order (`System/CallOrder.lean: inv_perSock`), and for calm histories: a pending request keeps its socket, so the next call uses it too |
| C75 | the whole project: declarations, functions, generated file, system; `Spec/Project.lean` says what is relied on | a Boolean check (`Check/*.lean`, not a model of code) implies the hypotheses of the module-level theorems C04, C05, C06, C21, C50, C51, C53, C55, C59, C60 (also on a fair network: C63), which are composed; the check is computed in the kernel for `examples/axum/api.rs` |
| C76 | schemas of a program and of the program without wrappers (`Spec/Wrappers.lean`), evaluated in their modules | a relation between schemas: the same shape, with some parts replaced by references to them (`Zod/Unwrap.lean`); related schemas parse alike, by induction on the depth of parsing; the schemas of the two programs are related, by induction on the unfolding |
| C77 | schemas and what parsing returns (`Zod/Parse.lean`); `Spec/Again.lean`: what "unchanged" means, types and enums whose cases cannot be mistaken for each other | false for `Result<Option<_>, _>` and untagged enums; otherwise by induction on the depth of the first validation: no earlier alternative of a union accepts what a later one returns (`Zod/Again.lean`) |
| C78 | schemas of a program and of the program with new fields that have a default (`Spec/Evolve.lean`), in their modules; serde (`Spec/Serde.lean`) | a relation between schemas: the same shape, with new optional keys in objects (`Zod/Evolve.lean`); related schemas parse values without these keys alike, by induction on the depth of parsing; the schemas of the two programs are related, by induction on the unfolding; serde by induction on the rules (`Zod/EvolveDe.lean`) |
| C79 | the same for new variants, new fields with defaults and new types (`WiderProgram` in `Spec/Evolve.lean`) | the relation of C78 with new alternatives in unions and discriminated unions, and unions in place of a single alternative; what is accepted is not rejected, by induction on the depth of parsing (`Zod/Wider.lean`); with C50 it is accepted; serde by induction on derivations (`Zod/EvolveDe.lean`) |
| C80 | two servers, one for a backend with more functions and namespaces (`Extends`, `Asks`, `Alike` in `Spec/Grow.lean`); two projects with the same clients (`AlikeSystems` in `Spec/GrowSystem.lean`) | simulation: related states make the same steps, by cases on the label (`Rpc/Grow.lean`); the decoder gives the same function and arguments for a call by name, whatever the positions; what the clients generated for the old backend send names functions of it, an invariant of the runs of a project (`System/Grow.lean`) |
| C81 | a program and one with new fields of any kind and new types (`LargerProgram` in `Spec/Evolve.lean`) | the relation of C78 without the condition on new properties; what is accepted with them is not rejected without them, by induction on the depth of parsing, and parsing ends (`Zod/Narrower.lean`); serde by induction on derivations (`Zod/NarrowerDe.lean`) |
| C82 | the types the texts of `type_def()` and `inline()` are read as, and their values (`Inhabits`), for the programs of C79 and C81 | `SubT` relates types of the two modules; its soundness by induction on the derivation that the value has the type (`Ts/Sub.lean`); the types of each declaration and then of each type are related, alternative by alternative, by induction on the depth of expansion (`Ts/SubDecl.lean`, `Ts/SubProgram.lean`) |
| C83 | the types of C82, for a program and the program without wrappers (`Spec/Wrappers.lean`) | what the two programs' Rust types mean (C07) is related constructor by constructor and has the same values, by induction on the derivation that the value has the type (`Ts/Unwrap.lean`); without wrappers a text has at most as many alternatives (`Ts/Alternatives.lean`), so the condition of C07 carries over |
| C84 | `derive` (`Schema/Derive.lean`) on all declarations (`Spec/Derivable.lean`) | case analysis over styles, tags and fields, induction over the variants |
| C85 | the schemas of a program and of the program with its named fields in another order (`Spec/Reorder.lean`), `zOf`, `parse`, `De` | a relation of schemas that permutes keys of objects, preserved by every construction (induction over the depth), and induction over the steps of validation; the serde rules by the induction of C78 |
| C86 | as for C85, with variants in another order (`Spec/Shuffle.lean`) | the relation of C85 extended to permuted unions and to permuted discriminated unions (no two options have the same key); for acceptance an induction that compares runs of different length; the rest as for C85 |
| C87 | the program with a function applied to its namespaces and names (`Spec/Rename.lean`), `zOf`, `dOf`, `parse`, `Inhabits`, `De` | the schema and the type of the renamed program are the schema and the type with the function applied to all references (induction over the depth); validation step by step the same; values of types by induction in both directions |
| C88 | two programs whose declarations differ in attributes only, two registries that differ in documentation only (`Spec/Documented.lean`), `generateWithOptions`, `readModule` | the derived implementations are the same but for `docs()`; reading a block depends on documentation only in that it is one comment (C15), so both blocks are read as the same declarations; a witness for the violation |
| C89 | any two registries of one program (`IsModule`), `generateWithOptions`, `readModule`, modules up to order in each namespace (`Spec/LinkOrder.lean`) | what a declaration or function registers is determined by the program (evaluation is deterministic), so registries are permutations of each other; reading a block commutes with permuting what is in it |
| C90 | `deriveStruct`, `deriveEnum`, `readSchema`, `readType`, `parse`, `Inhabits`, `De`; which declarations stand for another type (`Spec/StandsFor.lean`) | the texts of an alias are those of its target, written or referred to; a lazy reference parses like the constant it refers to (one more step), by induction on the depth of generation for enums with `from` |
| C91 | as C90; types that are the same up to aliases at any depth (`UpToAliases` in `Spec/StandsFor.lean`) | induction on the relation; having the same parse results is a congruence for all schema constructors, having the same values for all type constructors |
| C92 | as C76; `expandAll` in `Spec/Expand.lean` replaces an alias in all declarations of a program | the schema before is the schema after with some schemas replaced by references (`Folded` of `Zod/Unwrap.lean`, the other way round); induction on the unfolding of the changed program; `Zod/Relate.lean` has the congruence of declarations for any relation; what serde reads: induction on the reading in both directions (`Zod/ExpandDe.lean`, and `Zod/ExpandSer.lean` for what it writes), a counterexample where fields may be missing |
| C23-C28 | JSON-level decoding as derived by serde, dispatch tables | case analysis, list induction |
| C29-C40 | transition system: connections, mpsc queues, server loop, stream tasks (tokio abort semantics) with history variables | inductive invariants over all reachable states; violations by explicit reachable traces |
| C41-C48 | client state machine (sockets, open promise, timers, subscriptions) | inductive invariants; violations by explicit traces |
| C49, C56 | product of clients, network and server | invariants of the product, projections to the two halves, a variant function for liveness |

Properties the code violates keep their full statement (`Cxx_statement` in `Props`); the violation is proved
(`Cxx_violated`, a concrete reachable witness), and what holds is proved under the name `Cxx_..partial..`, with
the missing part said in its comment and in `MANIFEST.json`.

## Trusted base

1. **Lean's kernel** (4.33.0). No `sorry`, `admit`, own `axiom`, `native_decide`, `bv_decide`,
   `implemented_by` or `unsafe` anywhere. Concrete traces are checked by kernel evaluation
   (`decide +kernel`, `rfl`).
2. **Axioms**: at most Lean's three standard ones, `propext`, `Classical.choice`, `Quot.sound`. The table at the
   end lists them per theorem (`tools/gen_axioms.py`, from `#print axioms`).
3. **The models of the code** say what the code does (no tool connects them with the Rust and TypeScript
   sources; every definition cites its lines). 
4. **The models of the environment**, below.

### Modelled code

All of `core/src/build_ins.rs`, `core/src/lib.rs` (except `PartialEq`/`Deref` convenience impls),
`core/src/rpc/{mod,error,server}.rs`, `core/src/rpc/codegen/mod.rs`, `derive/src/docs.rs`,
`derive/src/impl_struct.rs`, `derive/src/impl_enum/**`, `derive/src/impl_inventory.rs`,
`derive/src/impl_namespace.rs` (`NAME` and the register struct), of `derive/src/lib.rs` the registration (`Codegen/Register.lean`), `derive/src/rpc/*.rs`, `src/rpc/servers/{proxy,axum}.rs`,
`src/rpc/clients/static/websocket_client.ts`, `core/src/docs.rs`.

### Code not modelled

* `build.rs` (writes the text of `core/src/docs.rs` to a file), `src/lib.rs` (re-exports),
  `src/rpc/mod.rs` (an unused trait), `axum.rs:1-28` (an unused `IntoResponse` wrapper), `examples/`; `tests/` only as described below.
* Parsing of Rust by `syn`/`darling` and of serde attributes by `serde_derive_internals`: declarations are given
  with the attributes as those libraries report them. Declarations on which serde's own checks fail are left
  out (`cx.check().unwrap()`).
* Token-level details of the generated Rust code (hygiene, spans, generics); `get_crate_name`.
* Generic derived types (the macros do not support them).
* Of serde's attributes: `other`, `tag` on a struct, `alias` on variants, `with`, `serialize_with`, `deserialize_with`, `remote`,
  `borrow`, `bound`. `skip_serializing_if`, `deny_unknown_fields`, `alias` on fields and `default` on structs, which the macros do not look at
  either, and the choice of the field of a `transparent` struct (markers, skipped fields), are part of
  the specification of serde (`Spec/Serde.lean`, `Spec/Ser.lean`); for `deny_unknown_fields` in a type that is flattened or that
  flattens others serde is described by a sufficient condition.
* `tracing`, `console` output, `performance.now`.

### Simplifications in the models of the code

* Server, client and system exchange documents; the texts of documents are in `Text.*`, and C65/C66 say when
  exchanging texts is exchanging documents. How doubles are written and rounded is a parameter there (any way of writing them
  which reading undoes); values that serde skips (`ignore_value`) are read with the depth limit as well.
  The texts of error messages are not modelled (`SerdeErr`).
* The two `mpsc::unbounded` channels are FIFO lists without bounds; memory is unbounded.
* A method's effect on the backend takes place when its future completes: nobody else can observe the backend
  before, the loop owns it.
* A stream is given by what its `n`-th `next()` yields.
* All namespaces of a backend have states and arguments of one Lean type.
* `HashMap`s that are only looked up are sorted maps. `inventory::iter` is an arbitrary list.
* Tuples of any length (the code: 1 to 30).
* Client: promise jobs run right after the task that caused them (`Client/Model.lean` explains why that is what
  JavaScript does for these jobs); ids in responses are natural numbers; `req_id` saturates at `2^53`.
* System: frames arrive in order; a connection is closed at one side after the other has closed it, or fails. A socket of
  a browser may stop being open some time before its close event (`beginDown`, `failBegin`).
  The data of a response stays a document, which the client passes on; where its value matters (C51, C60, C75) it is `fromJson`
  of the document, which rounds integers beyond `2^53`.
* C52 and the theorems that build on it are about the default `CodegenOptions`; C17-C20 and C62 are about all options.

### Assumptions about the environment

* **JavaScript**: numbers are IEEE 754 doubles; finite ones are represented by rationals (a superset). Integer
  literals are rounded to nearest even. `-0` is `0`. `toJSON`, prototypes, symbols, functions as values and
  cyclic values are left out. The parsers accept a subset of ECMA-262/TypeScript: what they accept is valid and
  is given its structure there. Where a theorem says that a text is *invalid*, it says that no reading exists in
  a grammar described in the theorem's specification.
* **zod 3.20**: schemas and their parsing as in `Zod/Schema.lean` and `Zod/Parse.lean`, following zod's source for
  the calls that occur in generated code. `z.bool` is not exported by zod. The regular expressions
  behind `.ip()` are those of 3.20.6 (`Zod/Ip.lean`).
* **serde/serde_json**: `Spec/Serde.lean` and `Spec/Ser.lean` give rules for what derived implementations accept and
  write. The acceptance rules are exact for the built-in types except `&str`, 128 bit integers and maps whose keys are not texts, for which
  they are sufficient conditions; counterexamples to C04 use exact ones only. Parsing and printing of IP addresses by
  Rust's standard library are in `Spec/Ip.lean`.
  `Rpc/Wire.lean` and `Rpc/Dispatch.lean` follow serde's generated visitors for the three request enums.
* **TypeScript**: structural membership of values in types (`Spec/TsTypes.lean`), scoping of namespaces
  (`Spec/Scope.lean`). The client text (`websocket_client.ts`) in front of the namespaces is
  in the model as it is (`Client/Text.lean`, written by `tools/gen_client.py`); C59 reads it with the same lexer and finds
  its declarations at top level. Statements inside of its functions are read only as far as matching brackets.
* **tokio/futures**: `unbounded_send` fails iff the receiver is dropped; `JoinHandle::abort` takes effect at the
  next suspension; dropping a `JoinHandle` detaches; a panic ends only its task; `select!` drops the other branch.
* **WebSocket (WHATWG)**: as described in `Client/Model.lean`.

### The repository's own tests, replayed on the model

`tools/gen_tests.py` reads `/repo/tests/*.rs` and writes `Verif/Tests/*.lean`: the same declarations and the same
assertions, about the model. Assertions on `schema()`, `type_def()`, `inline()` and `docs()` are evaluated; assertions on
`serde_json::to_value` and `from_value` are derivations of `Ser` and `De`. `Verif/Tests/Ui.lean` has the programs that
must not compile. These are tests of the model (literals, no quantifier), not proofs; they are evidence that the model is a model
of this code and that the rules for serde are right. Comparing with them led to two corrections: newtype
variants with a skipped field are read and written like unit variants, and tuples may end before fields with defaults.

## What is wrong with the code (proved)

| theorem | finding |
|---|---|
| C03_violated | the schema of `bool` is `z.bool()`, which zod does not have: constructing it throws |
| C03_violated_tagged, C13_violated | newtype/tuple variants of internally tagged enums: `z.discriminatedUnion` throws |
| C04_violated* | accepted but not deserializable: integers beyond 64 bits, infinities, arrays of the wrong length, sets, `PhantomData`, `01.2.3.4`, `1:2:3:4:5:6:7:1.2.3.4`, `undefined` for a tuple field with a default, tuple structs with one field left, transparent structs with a marker, missing optional payloads of variants and `Result`, a single internally tagged newtype variant without its tag, flattened fields of variants that are not flattened |
| C05_violated* | written by serde but rejected: `None` (`null`), `HashSet`/`HashMap` (JSON arrays/objects against `z.set`/`z.map`), NaN, characters outside the BMP, `PhantomData`/`Weak`, IPv6 addresses that end with `::`, tuple structs with one field left, transparent structs with a marker, internally tagged newtype variants, structs and variants with flattened fields (for structs the schema accepts nothing, C05_flatten) |
| C06_violated | the schema accepts `{}` for `{a: Option<u8>}`, the type requires `a` |
| C07_violated | flattened unions: `{..} & A \| B` groups wrongly |
| C08_self_reference_diverges | `type_def` of a type containing `Vec<Self>` etc. does not return |
| C12_violated | `Vec<Box<D>>` inlines the schema of `D` |
| C13_violated_missing, _empty | `{}` is accepted where the payload is an `Option`; `V()` is treated as unit |
| C14_violated | `export interface X [..]`, `export interface X {..} & Y` |
| C15_mark_not_escaped | `*/` in documentation ends the comment |
| C21_violated*, C22_violated, C52_violated, C53_violated*, C55_violated | names: types of namespaces outside the backend, types called like namespaces or `Array`, reserved words, arguments called `z`, methods called `request`, functions called like types |
| C27_violated, C27_zero_args_always_fail | methods without arguments, and namespaces with another name, cannot be called through the stubs |
| C34_violated | any client can cancel any other client's stream |
| C35_violated, C35_fatal | a client that disconnects while its method runs stops the server for everyone |
| C67_violated, C67_lost, C67_lost_stream, C67_unknown | after reconnecting the client does not repeat open calls: their promises never resolve and their streams stay silent for ever, and nobody can tell whether the request was executed |
| C68_violated, C68_never_cancelled, C68_never_stopped, C68_goes_on | a generated client never cancels a stream (`close() {}` of the store is empty): while the client has any other subscription, the server goes on producing items for a store nobody listens to |
| C36_violated | a reused id makes a stream uncancellable |
| C41_violated | ids stop growing at `2^53` |
| C43_violated | error responses are ignored: the promise never settles |
| C44_violated | a throwing callback keeps the message from later ones |
| C47_violated, C47_abandoned, C47_late_close | failed connections, closing while connecting, and the late close event of an old socket lose messages |
| C49_violated, C56_violated | the close event of an old socket closes the client's new socket; a response is lost and the server stops, without any failure |
| C51_violated (C51_none, _set, _map, _nan, _phantom, _internal_newtype, _skip_if) | documents serde writes that are no values of the TypeScript type: `null` for `None`, arrays for `Set`, objects for `Map`, tags of newtype variants, objects without a field that `skip_serializing_if` left out |
| C57_violated, C57_violated_deny, C57_violated_alias | the stub sends the arguments, not the validated copy: extra properties next to an externally tagged variant, in a type with `deny_unknown_fields`, or called like the alias of a field that is present, pass validation and are rejected by serde |
| C05_violated_skip_if | `#[serde(skip_serializing_if = "..")]` without a default: what serde writes when the field is left out is rejected by the schema |
| C58_violated, _rejected, _name | the duplicate check compares Rust names, the module uses serde names and `NAME`s: duplicates compile, and different names are rejected |
| C60_violated | through the whole system: a method returning `None` resolves the promise with `null`, its declared type is `T \| undefined` |
| C61_violated, C61_leak, C61_waiting | entries of ended streams are never removed: the subscriber table grows without bound; streams that wait are not ended when their client leaves |
| C62_violated, C62_references | prefixes and suffixes of `CodegenOptions` are put on declared names but not on the references to them: the references dangle |
| C63_violated_calm, C63_violated_socket | a request made while the pending socket is being closed waits for that socket and is dropped with it, although the client then connects again; the close event of an old socket closes the new one: a promise stays pending for ever without any failure, on a fair network |
| C64_violated, C64_violated_complete, C64_violated_named | the documentation table: containers of derived types contain a reference, not the schema; six built-in types, arrays and tuples are missing; parameters are called differently in the name and in the schema of `Result<T, E>`, `HashMap<T1, U2>`, `BTreeMap<T1, U2>` |
| C65_violated, C65_violated_arguments, C65_string | serde_json reads no text with 128 containers in each other: deep values of recursive types pass the validation and cannot be sent, and neither can strings with a lone surrogate (which `z.string()` accepts); the error has no id, so the promise never settles |
| C70_violated, C70_unnoticed, C70_violated_untagged | a `u64` such as 9007199254740993 that the client received and hands back arrives as another number, without an error anywhere; `Real(5.0)` of an untagged `enum Num { Whole(u8), Real(f64) }` arrives as `Whole(5)` |
| C71_violated, C71_map, C71_violated_infinity | a JavaScript `Map` passed for a `HashMap<String, _>` or `BTreeMap<String, _>` passes validation, is sent as `{}` and arrives as the empty map, without an error anywhere; `Infinity` passed for `Option<f64>` arrives as `None` |
| C72_violated, C72_responses, C72_requests, C72_stream | all channels are unbounded: a client that does not read, or one endless stream, makes the server hold any number of responses |
| C74_violated | a call overtakes the subscription made before it: the socket that carries the subscription is closed as soon as no callback is attached, the next call travels on a new connection |
| C83_violated | `#[serde(flatten)] e: Box<E>` for an enum `E`: the type of the struct also has values without the other fields; with `e: E` it has not |
| C84_violated | `enum E { A, V {} }`: the macro panics (`unreachable!`), and so it does on `struct S();` and when all fields of a tuple struct or struct variant are skipped |
| C59_violated, _browser | a namespace may be called like a constant of the client code, or like `Set`, `Promise`, `JSON`, ..., which the client code then no longer reaches |
| C50_violated | an untagged enum containing itself through a newtype: validation does not terminate |
| C77_violated, C77_untagged_violated | validating twice is not validating once: `{ Ok: "no number", Err: "e" }` becomes `{ Err: "e" }` and then `{}` with the schema of `Result<Option<u8>, String>` |
| C85_types_flattened_order | the TypeScript type of a struct with two flattened fields depends on their order if one of them is a `Result`: `{} & { Ok: number } \| { Err: string } & Ns.A` and `{} & Ns.A & { Ok: number } \| { Err: string }` have different values |
| C86_external_results_differ | not a defect of the generated text, but visible: for externally tagged enums the schema is a `z.union` of objects that drop unknown keys, so an object with the keys of two variants is accepted and the result keeps the variant that is written first |
| C88_violated | documentation with an end-of-comment mark can declare something: `/// */ export const evil = z.string() /*` adds the constant `evil` to a module that is still valid |

Further observations in the comments of the model: `Store.close` does nothing; a numeric method index is accepted
in requests; requests in array form are accepted; finished streams stay in the subscriber map (C37, C61).

## How the theorems were tested

`tools/mutate.py` applies realistic bugs to the model in a scratch copy and rebuilds; `seeded/LOG.jsonl` has one
line per attempt with the theorems that failed. Theorems that survived a bug they should have noticed were
tightened; the log says which.
## Axioms per theorem

All names are in the namespace `Verif.Props`.

* **none**: C28_serialization

* **propext**: C18_blocks_unique, C20_partition, C30_reply_of_request, C89_declarations

* **propext, Classical.choice, Quot.sound**: C01_exact, C01_result, C02_complete, C02_exact, C03_grammar, C03_exact, C03_exact_type, C03_parses, C03_violated, C03_violated_tagged, C03_partial, C04_violated_marker, C04_refute_decl, C04_violated_default, C04_violated_skipped, C04_violated_missing, C04_violated_result, C04_violated_internal, C04_violated_flatten, C04_ipv4_exact, C04_violated_ipv4, C04_ipv6_partial, C04_violated_ipv6, C04_module_partial, C04_refute, C04_violated, C04_violated_infinity, C04_violated_array, C04_violated_set, C04_violated_phantom, C04_partial, C04_defined_partial, C05_violated_skip_if, C05_violated_marker, C05_refute_decl, C05_flatten, C05_violated_skipped, C05_violated_internal, C05_violated_flatten_variant, C05_violated_flatten, C05_refute, C05_violated, C05_violated_set, C05_violated_nan, C05_violated_char, C05_violated_phantom, C05_partial, C05_ipv6_exact, C05_violated_ipv6, C05_module_partial, C06_agree, C06_lenient_partial, C06_strict_partial, C06_violated, C06_module_lenient_partial, C06_module_strict_partial, C06_arguments_partial, C07_grammar, C07_parses, C07_flattened_union, C07_violated, C07_partial, C07_reference_is_no_union, C07_option_is_one_operand, C08_returns_iff, C08_nonrecursive_returns, C08_type_def_iff, C08_schema_iff, C08_self_reference_diverges, C09_references, C09_struct_from, C09_enum_from, C10_derive, C10_program, C10_insert_field, C10_insert_variant, C10_insert_variant_field, C11_default_order, C12_violated, C12_top_partial, C12_type_def_partial, C12_schema_partial, C12_lookalikes, C13_refute, C13_violated, C13_violated_missing, C13_violated_empty, C13_partial, C14_declarations, C14_const, C14_partial, C14_invalid, C14_tuple_struct, C14_violated, C15_fails_iff, C15_lines, C15_comment_block, C15_one_comment, C15_mark_not_escaped, C16_complete, C16_idempotent, C16_decodes, C17_blocks_sorted, C18_block_contents, C18_options, C18_outside_ignored, C19_order_independent, C20_collect, C20_views, C21_partial, C21_violated, C21_violated_shadow, C21_violated_array, C22_partial, C22_validation, C22_violated, C23_client_message, C23_client_message_members, C24_accepted_shapes, C24_rejected, C25_dispatch, C25_dispatch_other, C25_method, C25_stream, C26_bad_call, C26_bad_reasons, C27_violated, C27_zero_args_always_fail, C27_partial, C27_exact, C27_statement_iff, C28_id_kept, C29_sequential, C29_progress, C30_replies, C30_replies_caught_up, C31_stream_items, C32_socket_order, C32_progress, C33_cancel_stops, C34_violated, C34_partial, C34_disjoint_ids_partial, C35_fatal, C35_violated, C35_partial, C36_violated, C36_partial, C37_bookkeeping, C38_shutdown, C39_send, C39_disconnected_closes, C40_bad_frames, C41_violated, C41_partial, C42_own_response, C42_any_history, C43_violated, C43_partial, C43_delivery_ends, C44_violated, C44_partial, C44_nothing_else, C44_after_detach, C45_live, C46_in_order, C47_dropped_is_lost, C47_violated, C47_abandoned, C47_late_close, C47_partial, C49_value, C49_at_most_once, C49_violated, C49_partial, C49_partial_quiet, C49_connected, C49_stream, C49_stream_value, C49_stream_later, C50_violated, C50_partial, C50_exact, C51_skip_if, C51_module_partial, C51_partial, C51_none, C51_set, C51_map, C51_nan, C51_phantom, C51_internal_newtype, C51_violated, C52_partial, C52_violated, C52_grammar, C53_partial, C53_violated, C53_violated_request, C55_partial, C55_exact, C55_violated, C56_violated, C56_partial, C57_violated_deny, C57_violated_alias, C57_partial, C57_method_partial, C57_violated, C58_partial, C58_module_partial, C58_violated, C58_violated_name, C58_violated_rejected, C59_partial, C59_violated, C59_violated_browser, C59_grammar, C60_partial, C60_call_partial, C60_violated, C60_fair_partial, C60_fair_stream_partial, C61_unread_partial, C61_partial, C61_cancelled_partial, C61_leak, C61_violated, C61_waiting, C62_partial, C62_default, C62_references, C62_violated, C63_violated_calm, C63_violated_socket, C63_violated, C63_partial, C63_partial_sent, C63_stream, C63_deliveries, C64_partial, C64_partial_builtin, C64_violated, C64_missing, C64_violated_complete, C64_missing_shapes, C64_titles, C64_violated_named, C64_named_partial, C64_document, C64_links, C65_exact, C65_violated, C65_partial, C65_violated_arguments, C65_chain, C65_delivered, C65_string, C66_exact, C66_string, C67_lost, C67_lost_stream, C67_lost_stream_later, C67_not_resent, C67_violated, C67_partial, C67_unknown, C68_never_cancelled, C68_never_stopped, C68_goes_on, C68_violated, C68_last, C68_partial, C69_server, C69_client, C69_unique, C69_unique_client, C69_request, C69_rejected, C69_layout, C69_written, C70_violated, C70_unnoticed, C70_narrow, C70_partial, C70_text, C70_violated_untagged, C71_refute, C71_violated, C71_violated_infinity, C71_map, C71_discrete_partial, C72_responses, C72_requests, C72_violated, C72_stream, C72_partial, C73_real_time, C73_values, C73_linearizable, C73_stream, C74_violated, C74_partial, C74_requests_partial, C75_checked, C75_generated, C75_axum, C76_same_values, C76_reference, C76_returns, C76_converse_false, C77_violated, C77_untagged_violated, C77_partial, C77_returned_partial, C78_same_values, C78_read, C78_condition_needed, C79_not_rejected, C79_accepted, C79_read, C79_result_changes, C79_condition_needed, C80_same_run, C80_same_frames, C80_clients, C80_names_needed, C81_accepted, C81_rejected, C81_read, C81_converse_fails, C81_result_changes, C81_deny_needed, C82_new_is_old, C82_old_is_new, C82_default_needed, C82_no_new_variants, C82_names_needed, C83_partial, C83_reference_partial, C83_violated, C84_exact, C84_unreadable, C84_partial, C84_violated, C85_same_values, C85_returns, C85_derives, C85_read, C85_types, C85_types_flattened_order, C86_acceptance, C86_same_values, C86_returns, C86_derives, C86_read, C86_external_results_differ, C86_types, C86_types_flattened_order, C87_same_results, C87_returns, C87_derives, C87_read, C87_types, C88_partial, C88_registers, C88_texts, C88_derives, C88_read, C88_violated, C89_registered, C89_same_module, C90_reference, C90_schema, C90_type, C90_serde, C90_written, C91_schema, C91_type, C91_serde, C91_written, C92_schema, C92_exports, C92_read, C92_read_iff, C92_written, C92_written_iff, C92_missing_changes

* **propext, Quot.sound**: C37_untouched, C43_error_ignored, C47_opening_sends, C48_backoff, C48_monotone, C48_reset, C48_recorded, C54_accepts_iff, C54_accepts, C65_alike, C70_document, C71_partial
