{"id": "C01", "title": "Bounded integer schemas accept exactly the Rust range", "statement": "For u8, u16, u32, i8, i16, i32 the text returned by ZodType::schema(), read as a zod expression, accepts a JavaScript number iff that number is an integer inside the Rust type's range; it accepts nothing that is not a number.", "quantifier": "every JavaScript value (every finite number, infinities, NaN, and non-numbers) and each of the six integer types", "why_tests_cant": "the accepted set is infinite; a unit test compares strings or a few sample numbers, it cannot rule out an off-by-one bound for all numbers", "anchors": ["core/src/build_ins.rs:impl_primitive!"]}
{"id": "C02", "title": "Wide integer schemas accept every value Rust can send", "statement": "For u64, u128, usize, i64, i128, isize: whatever integer of the type is serialized, after JavaScript has rounded it to a double, schema() accepts it (the literal bound is rounded by JavaScript too, so this is a statement about monotone rounding).", "quantifier": "every integer in the range of each of the six types", "why_tests_cant": "2^64 to 2^128 values, and the interesting ones are at rounding boundaries", "anchors": ["core/src/build_ins.rs:impl_primitive!"]}
{"id": "C03", "title": "Generated schema text is valid zod code", "statement": "For every Rust type built from the supported building blocks and derived types whose names are JavaScript identifiers, the string returned by schema() and by inline_schema() lexes and parses as a JavaScript expression and evaluates, without throwing, to a zod schema.", "quantifier": "every type expression, of any nesting depth, over every program of derived structs and enums", "why_tests_cant": "types nest arbitrarily; tests only compare fixed strings produced by the same format strings and never run them", "anchors": ["core/src/build_ins.rs", "derive/src/impl_struct.rs:Struct::expand_schema", "derive/src/impl_enum/mod.rs:Enum::expand_schema"]}
{"id": "C04", "title": "Validated input deserializes (schema soundness)", "statement": "If schema() of a type accepts a JavaScript value, then JSON.stringify of the parsed result is JSON that serde deserializes as that Rust type.", "quantifier": "every type in the supported fragment, every program of derived types, every JavaScript value", "why_tests_cant": "quantifies over all types and all values at once; needs induction on both", "anchors": ["core/src/build_ins.rs", "derive/src/impl_struct.rs", "derive/src/impl_enum/mod.rs", "derive/src/impl_enum/variant/*.rs"]}
{"id": "C05", "title": "Serialized output validates (schema completeness)", "statement": "If serde serializes a value of a Rust type to some JSON, then the JavaScript value JSON.parse makes of it is accepted by schema() of that type.", "quantifier": "every type in the supported fragment, every program of derived types, every value of the type", "why_tests_cant": "quantifies over all types and all values at once; needs induction on both", "anchors": ["core/src/build_ins.rs", "derive/src/impl_struct.rs", "derive/src/impl_enum/mod.rs", "derive/src/impl_enum/variant/*.rs"]}
{"id": "C06", "title": "TypeScript type and zod schema agree", "statement": "Every value accepted by schema() of a type inhabits the TypeScript type printed by type_def() of the same type.", "quantifier": "every type in the supported fragment, every program, every JavaScript value", "why_tests_cant": "the two texts are produced by two independent code paths; agreement must hold for every nesting, tagging mode and attribute combination", "anchors": ["core/src/build_ins.rs", "derive/src/impl_struct.rs:expand_type_def", "derive/src/impl_enum/mod.rs:expand_typ_defs"]}
{"id": "C07", "title": "Generated TypeScript type text is valid and unambiguous", "statement": "For every supported type, type_def() and inline() print text that parses as a TypeScript type, and operator precedence in the text groups unions and intersections as intended.", "quantifier": "every type expression of any nesting depth, every program of derived types", "why_tests_cant": "precedence errors appear only for particular nestings (e.g. an intersection with an unparenthesised union)", "anchors": ["core/src/build_ins.rs", "derive/src/impl_struct.rs:expand_type_defs", "derive/src/impl_enum/field.rs"]}
{"id": "C08", "title": "Schema generation terminates exactly for non-recursive expansion", "statement": "schema() / type_def() returns iff the chain of nested trait calls it triggers is finite; in particular it returns for every program without recursive types, and type_def() of any type that contains itself behind Box/Vec/Option/... never returns.", "quantifier": "every program of derived types, every type, both methods", "why_tests_cant": "non-termination cannot be observed by a test; termination must hold for all type graphs", "anchors": ["core/src/lib.rs:ZodType", "core/src/build_ins.rs:impl_wrapper!", "derive/src/impl_struct.rs:Struct::expand"]}
{"id": "C09", "title": "Derived types are referenced by qualified name", "statement": "inline_schema() of a derived type is `z.lazy(() => NS.NAME)` and inline() prints `NS.NAME` with NS the namespace's NAME and NAME the serde (deserialize) name, whatever the fields, variants and attributes are (except from/try_from); so using a type never depends on its body.", "quantifier": "every derivable struct or enum declaration", "why_tests_cant": "ranges over all declarations", "anchors": ["derive/src/impl_struct.rs:Struct::expand", "derive/src/impl_enum/mod.rs:Enum::expand"]}
{"id": "C10", "title": "Skipped fields and variants leave no trace", "statement": "Adding, removing or changing fields or variants marked skip/skip_deserializing never changes the generated schema or TypeScript type.", "quantifier": "every struct or enum declaration and every insertion of skipped fields/variants at any position", "why_tests_cant": "all declarations and all positions", "anchors": ["derive/src/impl_struct.rs:expand", "derive/src/impl_enum/mod.rs:expand", "derive/src/impl_enum/field.rs:VariantFields::new"]}
{"id": "C11", "title": "Default ordering in tuple structs is enforced exactly", "statement": "Deriving on a tuple struct with at least two kept fields fails with `non-default field follows default field` iff some kept field without default comes after a kept field with a default.", "quantifier": "every tuple struct declaration, any number of fields", "why_tests_cant": "all field lists", "anchors": ["derive/src/impl_struct.rs:Struct::expand_schema"]}
{"id": "C12", "title": "Wrappers and look-alike collections are transparent", "statement": "Box, Arc, Rc, Cow, Cell, RefCell, Mutex, Weak, PhantomData of T produce the same schema and type text as T; BTreeSet/BTreeMap/[T;N] the same as HashSet/HashMap/Vec; in any context and at any depth.", "quantifier": "every type T and any nesting of wrappers", "why_tests_cant": "nesting is unbounded", "anchors": ["core/src/build_ins.rs:impl_wrapper!", "core/src/build_ins.rs:impl_shadow!"]}
{"id": "C13", "title": "Enum schemas match serde's four tagging modes", "statement": "For every enum (external, internal, adjacent, untagged; unit, newtype, tuple, struct variants) the schema accepts exactly one alternative per non-skipped variant, in the JSON shape serde uses for that variant.", "quantifier": "every enum declaration with any number of variants and fields", "why_tests_cant": "tests cover two variants at a time; must hold for all variant lists and payload types", "anchors": ["derive/src/impl_enum/mod.rs", "derive/src/impl_enum/variant/*.rs", "derive/src/impl_enum/field.rs"]}
{"id": "C14", "title": "Exported declarations are syntactically valid TypeScript", "statement": "For each registered type, the declaration emitted by generate() (`export interface NAME ...` or `export type NAME = ...;`) is valid TypeScript: an interface body is a single object type.", "quantifier": "every derivable struct or enum declaration", "why_tests_cant": "all declarations, including tuple structs and flattened fields which no test renders through generate()", "anchors": ["core/src/rpc/server.rs:generate_with_options", "derive/src/impl_struct.rs:Struct::expand"]}
{"id": "C15", "title": "Doc comments render as one well formed comment", "statement": "The docs text of a type is empty or exactly one `/** ... */` block whose lines are the trimmed doc lines each prefixed by `* `, without the leading blank ones and without one final blank one; it ends the comment exactly at its end provided no doc line contains `*/`.", "quantifier": "every list of attributes / doc strings", "why_tests_cant": "all strings; a single `*/` inside a doc line breaks the generated module", "anchors": ["derive/src/docs.rs"]}
{"id": "C16", "title": "Markdown escaping is complete and idempotent", "statement": "The type table's escape() output never contains `<`, `>` or `|`, decodes back to the input when the input has no entity of its own, and escaping twice equals escaping once.", "quantifier": "every input string", "why_tests_cant": "all strings", "anchors": ["core/src/docs.rs:escape"]}
{"id": "C17", "title": "generate() emits the client prelude and each namespace once, sorted", "statement": "The output of generate() is the client code followed by one `export namespace` block per backend namespace that has at least one registered type or rpc member, in strictly increasing name order.", "quantifier": "every set of registered types and rpc members in any registration order, every backend, every client prelude", "why_tests_cant": "all registries and link orders", "anchors": ["core/src/rpc/server.rs:Backend::generate_with_options", "core/src/lib.rs:NamespaceMemberDefinition::collect"]}
{"id": "C18", "title": "generate() emits every member of the backend's namespaces and nothing else", "statement": "Inside a namespace block appear exactly the registered types of that namespace (each once, in registration order) followed by exactly its rpc functions (each once, in registration order); members of namespaces outside the backend do not appear.", "quantifier": "every registry, every backend", "why_tests_cant": "all registries and link orders", "anchors": ["core/src/rpc/server.rs:Backend::generate_with_options"]}
{"id": "C19", "title": "Output is independent of cross-namespace link order", "statement": "Two registration orders that agree on the relative order inside each namespace produce identical output.", "quantifier": "every pair of such registration orders", "why_tests_cant": "linker order is not controlled by tests", "anchors": ["core/src/rpc/server.rs:Backend::generate_with_options", "core/src/lib.rs:NamespaceMemberDefinition::collect"]}
{"id": "C20", "title": "Registry views partition the registry", "statement": "collect(), members(), zod_namespaces(), rpc_members() return, for each namespace name, exactly the registered members of that namespace in registration order; nothing is lost or duplicated.", "quantifier": "every registry and every namespace name", "why_tests_cant": "all registries", "anchors": ["core/src/lib.rs:Namespace::members", "core/src/lib.rs:NamespaceMemberDefinition::collect", "core/src/rpc/server.rs:rpc_members", "core/src/rpc/server.rs:zod_namespaces", "core/src/rpc/codegen/mod.rs:RpcNamespace::rpc_members"]}
{"id": "C21", "title": "Every type reference in the generated module is declared in it", "statement": "Each NS.NAME reference occurring in the generated schemas and types resolves to a declaration emitted by the same generate() call.", "quantifier": "every program of derived types, every backend", "why_tests_cant": "closure under references is a global property of all programs", "anchors": ["core/src/rpc/server.rs:generate_with_options", "derive/src/impl_struct.rs", "derive/src/impl_enum/mod.rs"]}
{"id": "C22", "title": "Client stubs carry the method's name, namespace and argument list", "statement": "The emitted TypeScript function for a method/stream names each argument once in order with its type, validates exactly the argument tuple in order, and forwards to request/subscribe with the registered namespace NAME and the method's name.", "quantifier": "every rpc member with any number of arguments", "why_tests_cant": "all signatures", "anchors": ["core/src/rpc/codegen/mod.rs:RpcMember::decl", "derive/src/rpc/impl_rpc.rs:expand_inventory_submit"]}
{"id": "C23", "title": "Client request message decodes to the same call", "statement": "The JSON message the client builds for (id, namespace, method, args) is decoded by the server into an Exec request with the same id whose remaining members are exactly namespace, method and args.", "quantifier": "every id, namespace, method and argument list", "why_tests_cant": "all payloads", "anchors": ["core/src/rpc/mod.rs:Request", "src/rpc/clients/static/websocket_client.ts:execute"]}
{"id": "C24", "title": "Request decoding accepts exactly the documented shapes", "statement": "A message is accepted iff it is an object with the single key exec or cancelStream and a valid id; everything else is rejected, and for exec every other member is preserved (last occurrence of a key wins).", "quantifier": "every JSON document", "why_tests_cant": "all documents", "anchors": ["core/src/rpc/mod.rs:Request"]}
{"id": "C25", "title": "Calls are dispatched to the method they name with the arguments in order", "statement": "An Exec whose namespace is a backend namespace, whose method is one of its methods and whose args array decodes positionally runs exactly that method of that namespace with exactly those arguments in order; no other namespace's state is touched.", "quantifier": "every backend, every namespace/method table, every JSON argument list", "why_tests_cant": "all tables and payloads", "anchors": ["derive/src/rpc/impl_rpc.rs", "derive/src/rpc/backend_impl.rs"]}
{"id": "C26", "title": "A bad call is answered by one error carrying its id and changes nothing", "statement": "An Exec with unknown namespace, unknown method, missing/extra/ill-typed args yields exactly one error response with the same id, runs no method, leaves backend state and subscriptions unchanged.", "quantifier": "every such request in every server state", "why_tests_cant": "all malformed payloads in all states", "anchors": ["derive/src/rpc/backend_impl.rs:handle_request", "core/src/rpc/mod.rs:Response::error"]}
{"id": "C27", "title": "Every generated stub can be served", "statement": "A call made through a generated client stub (validated arguments) is decoded and dispatched by the server derived from the same code, for every method signature and namespace.", "quantifier": "every backend, every method signature including zero arguments and renamed namespaces", "why_tests_cant": "all signatures; fails at corners (no arguments, #[namespace(name=..)]) that tests do not exercise", "anchors": ["derive/src/rpc/impl_rpc.rs:expand_req_variant_decl", "derive/src/rpc/backend_impl.rs:expand_req_enum", "derive/src/impl_namespace.rs", "core/src/rpc/codegen/mod.rs:decl"]}
{"id": "C28", "title": "Results that cannot be serialized become errors with the same id", "statement": "Response::method / Response::stream produce a method/stream response with the given id when the value serializes and an error response with the same id otherwise.", "quantifier": "every id and every serialization outcome", "why_tests_cant": "all values", "anchors": ["core/src/rpc/mod.rs:Response::method", "core/src/rpc/mod.rs:Response::stream"]}
{"id": "C29", "title": "Requests are executed one at a time in arrival order", "statement": "Over every schedule, the backend state is the result of running the accepted requests sequentially in the order they were accepted from all connections together; no request is dropped, duplicated or overlapped while the server task is alive.", "quantifier": "every interleaving of connections, frames, method completions, stream tasks, cancellations and disconnects", "why_tests_cant": "all schedules", "anchors": ["src/rpc/servers/proxy.rs:BackendProxy::new", "derive/src/rpc/backend_impl.rs:handle_request"]}
{"id": "C30", "title": "Each request gets exactly its replies, on its own connection, in order", "statement": "The non-stream responses put on a connection are exactly the replies to the requests accepted from that connection, in order: one method response (or error) with the same id per exec of a method, one id-less error per unparsable message, none for cancel and for a started stream; nothing from another connection.", "quantifier": "every schedule and every connection", "why_tests_cant": "all schedules", "anchors": ["src/rpc/servers/proxy.rs", "src/rpc/servers/axum.rs:websocket", "derive/src/rpc/impl_rpc.rs"]}
{"id": "C31", "title": "Stream items arrive in order without loss, duplication or mix-up", "statement": "The stream responses of one subscription put on its connection are, at every moment, exactly the first n items its stream produced, tagged with the id of the request that started it.", "quantifier": "every schedule, every stream (finite or infinite), every number of concurrent streams", "why_tests_cant": "all schedules and stream contents", "anchors": ["derive/src/rpc/impl_rpc.rs:expand_req_variant_impl_stream"]}
{"id": "C32", "title": "Responses reach the socket in channel order", "statement": "What is written to a websocket is always a prefix of the responses produced for that connection, in production order; while the connection lives nothing is lost.", "quantifier": "every schedule and connection", "why_tests_cant": "all schedules", "anchors": ["src/rpc/servers/axum.rs:websocket", "src/rpc/servers/proxy.rs:ProxyRx"]}
{"id": "C33", "title": "A cancelled stream stops", "statement": "Once a cancelStream naming a subscription has been processed, its task produces no more items after it next yields; a suspended task never runs again, and cancellation is permanent.", "quantifier": "every schedule and every stream", "why_tests_cant": "depends on the interleaving of the cancel with the running task", "anchors": ["derive/src/rpc/backend_impl.rs:handle_request", "core/src/rpc/server.rs:SubscriberMap"]}
{"id": "C34", "title": "Cancelling affects only the named subscription of the caller", "statement": "Processing cancelStream{id} from a connection never stops a stream belonging to another connection, and cancelling an id that is not active does nothing.", "quantifier": "every schedule with any number of connections using any ids", "why_tests_cant": "needs two clients with colliding ids and a particular interleaving", "anchors": ["derive/src/rpc/backend_impl.rs:handle_request", "src/rpc/servers/proxy.rs:BackendProxy::new"]}
{"id": "C35", "title": "A disconnecting client cannot take the server down", "statement": "Whatever one client does (including disconnecting at any point), the server keeps serving the requests of the other clients.", "quantifier": "every schedule, every crash point of a client", "why_tests_cant": "needs a disconnect exactly while a method is running or queued", "anchors": ["derive/src/rpc/impl_rpc.rs:expand_req_variant_impl_method", "src/rpc/servers/proxy.rs:BackendProxy::new"]}
{"id": "C36", "title": "An active stream can always be cancelled", "statement": "While a stream started with id is still running, cancelStream{id} from its owner stops it; starting another stream with an id in use does not make the first one uncancellable.", "quantifier": "every schedule and id assignment", "why_tests_cant": "depends on id reuse across histories", "anchors": ["derive/src/rpc/backend_impl.rs:handle_request"]}
{"id": "C37", "title": "Subscription bookkeeping is exact", "statement": "The set of ids the server tracks is exactly the ids of streams started and not cancelled since (ids of finished streams stay until cancelled or overwritten); requests that start no stream do not change it.", "quantifier": "every history of requests", "why_tests_cant": "all histories", "anchors": ["core/src/rpc/server.rs:SubscriberMap", "derive/src/rpc/backend_impl.rs:handle_request"]}
{"id": "C38", "title": "Shutting the server down aborts every tracked stream", "statement": "When the server task ends (normally or by panic) every stream still tracked is aborted; after that no suspended tracked stream produces an item.", "quantifier": "every schedule up to the shutdown", "why_tests_cant": "all schedules and crash points", "anchors": ["core/src/rpc/server.rs:SubscriberMap::drop", "src/rpc/servers/proxy.rs"]}
{"id": "C39", "title": "send() reports disconnection exactly when the server task has ended", "statement": "ProxyTx::send returns Err(Disconnected) iff the server task is gone; otherwise the request is queued behind all earlier ones.", "quantifier": "every schedule", "why_tests_cant": "all schedules", "anchors": ["src/rpc/servers/proxy.rs:ProxyTx::send"]}
{"id": "C40", "title": "Non-text and unparsable frames are harmless", "statement": "A binary/ping/pong frame has no effect; an unparsable text frame produces one id-less error for that connection and leaves the backend state and all subscriptions unchanged.", "quantifier": "every frame in every server state", "why_tests_cant": "all inputs and states", "anchors": ["src/rpc/servers/axum.rs:websocket", "src/rpc/servers/proxy.rs"]}
{"id": "C41", "title": "Request ids are unique and increasing", "statement": "Over any history the ids used by request() and subscribe() are pairwise distinct and strictly increasing in call order.", "quantifier": "every history of client calls and events", "why_tests_cant": "all histories", "anchors": ["src/rpc/clients/static/websocket_client.ts:request", "src/rpc/clients/static/websocket_client.ts:subscribe"]}
{"id": "C42", "title": "A request resolves with its own response only", "statement": "The promise returned by request() resolves at most once, and only with the data of the first method/stream message whose id equals the request's id received after the call (as long as ids are distinct, see C41).", "quantifier": "every history of calls and incoming messages in any order", "why_tests_cant": "all histories, out-of-order and foreign responses", "anchors": ["src/rpc/clients/static/websocket_client.ts:request"]}
{"id": "C43", "title": "Every answered request settles", "statement": "When the server answers a request (with a result or an error), the promise returned by request() settles.", "quantifier": "every history and every response kind", "why_tests_cant": "error responses are never produced in tests", "anchors": ["src/rpc/clients/static/websocket_client.ts:websocketStore", "src/rpc/clients/static/websocket_client.ts:request"]}
{"id": "C44", "title": "Subscription callbacks see exactly their stream's items", "statement": "A callback subscribed to a store is invoked exactly once, in order, with the data of each message bearing the store's id received while it is subscribed, and never with other data.", "quantifier": "every history", "why_tests_cant": "all histories and interleavings of several stores", "anchors": ["src/rpc/clients/static/websocket_client.ts:subscribe"]}
{"id": "C45", "title": "No subscription is leaked by request()", "statement": "After a request settles its internal subscription is gone: the set of live subscriptions is exactly the unsettled requests plus the store callbacks not unsubscribed.", "quantifier": "every history", "why_tests_cant": "all histories", "anchors": ["src/rpc/clients/static/websocket_client.ts:request"]}
{"id": "C46", "title": "Messages are sent once, in call order, on a stable connection", "statement": "As long as no socket closes or fails, every message passed to send is transmitted exactly once and in call order, whether it was issued before or after the socket opened.", "quantifier": "every history without close/error events", "why_tests_cant": "all interleavings of calls with the opening handshake", "anchors": ["src/rpc/clients/static/websocket_client.ts:open_and_send", "src/rpc/clients/static/websocket_client.ts:open"]}
{"id": "C47", "title": "No request is lost when the client reconnects", "statement": "A message handed to the client is eventually transmitted even if the socket closes or a connection attempt fails in between.", "quantifier": "every history of socket events", "why_tests_cant": "needs a particular order of close/open events of two sockets", "anchors": ["src/rpc/clients/static/websocket_client.ts:open", "src/rpc/clients/static/websocket_client.ts:reopen", "src/rpc/clients/static/websocket_client.ts:close"]}
{"id": "C48", "title": "Reconnect delays follow the backoff table", "statement": "The n-th consecutive reconnect attempt since the last successful open waits 100, 200, 1000, then always 3000 ms; the delay never decreases between opens and a successful open resets it.", "quantifier": "every history of closes and opens, any number of consecutive failures", "why_tests_cant": "unbounded number of failures", "anchors": ["src/rpc/clients/static/websocket_client.ts:reopenTimeout", "src/rpc/clients/static/websocket_client.ts:open"]}
{"id": "C49", "title": "End to end: a stub call resolves with the method's result", "statement": "With one client and one server connected and no disconnect, every request() whose call decodes resolves with the JSON of that method's return value, executed on the state left by the earlier calls.", "quantifier": "every sequence of requests and every schedule of client, network and server", "why_tests_cant": "all schedules of the composed system", "anchors": ["src/rpc/clients/static/websocket_client.ts", "src/rpc/servers/axum.rs", "src/rpc/servers/proxy.rs", "derive/src/rpc/*.rs"]}
{"id": "C50", "title": "Validating a value against a generated schema terminates", "statement": "Calling parse of the schema of any exported type on any JavaScript value ends (with a value or an error); it does not recurse forever.", "quantifier": "every program of (mutually recursive) derived types, every type and every JavaScript value of any depth", "why_tests_cant": "ranges over all recursive type graphs and all values", "anchors": ["core/src/build_ins.rs", "derive/src/zod/impl_enum/mod.rs", "derive/src/zod/impl_struct.rs"]}
{"id": "C51", "title": "What the server writes is a value of the TypeScript type", "statement": "The JSON document serde writes for a value of an exported type is, once parsed by JavaScript, a value of the type's generated TypeScript type. (Results of rpc calls are not validated by the client, so nothing else makes their types true.)", "quantifier": "every program of derived types, every type and every value of it", "why_tests_cant": "ranges over all types and values", "anchors": ["core/src/build_ins.rs:type_def", "derive/src/zod/impl_struct.rs", "derive/src/zod/impl_enum/mod.rs", "src/rpc/clients/static/websocket_client.ts:request"]}
{"id": "C52", "title": "The generated module is valid TypeScript and contains exactly what was registered", "statement": "What generate() writes after the client code is a syntactically valid TypeScript module: one namespace for each of the backend's namespaces that has types or functions, sorted by name, each declaring exactly the registered types (a schema constant and a type) followed by exactly the registered functions.", "quantifier": "every program of derived types and rpc functions, every registration order, every backend", "why_tests_cant": "syntactic validity of the output for all programs cannot be sampled", "anchors": ["core/src/rpc/server.rs:Backend::generate_with_options", "core/src/lib.rs:NamespaceMemberDefinition", "core/src/rpc/codegen/mod.rs:RpcMember::decl", "derive/src/rpc/*.rs"]}
{"id": "C53", "title": "Generated code reaches zod and the client functions", "statement": "Every use of z, request and subscribe in the generated schemas and stubs refers to the names the client code declares, not to an argument, function, type or namespace of the program.", "quantifier": "every program of derived types and rpc functions, every backend", "why_tests_cant": "name capture depends on all names of the program", "anchors": ["core/src/rpc/codegen/mod.rs:RpcMember::decl", "core/src/rpc/server.rs:Backend::generate_with_options"]}
{"id": "C54", "title": "The rpc macro accepts exactly the functions it can serve", "statement": "An impl block is accepted iff each of its functions takes &mut self first, is async or returns a stream but not both, and has plain names as arguments; then the functions are registered in order with their names, argument names and types, as methods iff they are async, with result type () if they have none.", "quantifier": "every impl block", "why_tests_cant": "all signatures", "anchors": ["derive/src/rpc/args.rs:RpcItem::from_ast", "derive/src/rpc/impl_rpc.rs:expand_inventory_submit"]}
{"id": "C55", "title": "No name is declared twice in a namespace of the generated module", "statement": "If different types of a namespace have different names and so do different functions, then no namespace of the generated module declares two values or two types with one name, and no two namespaces have the same name.", "quantifier": "every program of derived types and rpc functions, every backend", "why_tests_cant": "depends on all names of the program", "anchors": ["core/src/rpc/server.rs:Backend::generate_with_options", "core/src/rpc/codegen/mod.rs:RpcMember::decl"]}
{"id": "C56", "title": "Generated clients cannot bring down the server", "statement": "As long as the network does not fail, no method panics and only generated clients connect, the server task never stops, whatever calls the clients make, whenever they close their stores and however messages, close events and the work of the server interleave.", "quantifier": "every service, every number of clients, every schedule of client calls, network deliveries, close events and server steps", "why_tests_cant": "the failing interleaving needs a close event, a new connection and a running method at the same time; all schedules are infinite in number", "anchors": ["src/rpc/clients/static/websocket_client.ts", "src/rpc/servers/axum.rs", "src/rpc/servers/proxy.rs", "derive/src/rpc/impl_rpc.rs"]}
{"id": "C57", "title": "Calls that pass validation reach the method", "statement": "If the arguments of a generated client function pass its validation, the server decodes the message that is sent to a call of the corresponding method with these arguments, and a method then runs once with them and its result is the reply.", "quantifier": "every program of derived types, every backend and function, every list of argument values", "why_tests_cant": "relates generated schemas, generated stubs, serde and the dispatch of the server for all types and values", "anchors": ["core/src/rpc/codegen/mod.rs:RpcMember::decl", "core/src/build_ins.rs:schema", "derive/src/rpc/impl_rpc.rs", "core/src/rpc/server.rs", "src/rpc/clients/static/websocket_client.ts:request"]}
{"id": "C58", "title": "Duplicate types are rejected at compile time", "statement": "A crate whose derived types refer to existing namespaces compiles iff no two types of a namespace have the same name in the generated module.", "quantifier": "every set of namespaces and derived types", "why_tests_cant": "concerns programs that do not compile and all combinations of names", "anchors": ["derive/src/lib.rs:expand_type_registration", "derive/src/lib.rs:format_ident_for_registration", "derive/src/impl_namespace.rs:expand", "derive/src/impl_inventory.rs:expand"]}
{"id": "C59", "title": "The client code and the generated namespaces fit together in one file", "statement": "The file made with the websocket client is a sequence of declarations that declares z, request, subscribe and Store, followed by the namespaces; no value is declared twice at its top level, and no namespace hides a value of the browser that the client code uses.", "quantifier": "every program of derived types and rpc functions, every backend", "why_tests_cant": "depends on the names of all namespaces and on the whole text of the client code", "anchors": ["src/rpc/clients/static/websocket_client.ts", "src/rpc/clients/mod.rs:WebsocketClient::get", "core/src/rpc/server.rs:Backend::generate_with_options"]}
{"id": "C60", "title": "What a client function gives its caller has the declared type", "statement": "In any history of clients, network and server: if the promise returned by a generated client function resolves with a value, or a callback given to the store it returned is called with one, then the value is of the type that the generated module declares for it, provided the backend implements the functions with the declared Rust types.", "quantifier": "every program of derived types and rpc functions, every backend that implements them, every history of the system (schedules, failures, other clients included), every result", "why_tests_cant": "combines code generation, serde, dispatch, the server loop, the network and the client, for all programs and all interleavings", "anchors": ["derive/src/rpc/mod.rs", "core/src/rpc/codegen/mod.rs", "src/rpc/servers/axum.rs", "src/rpc/clients/static/websocket_client.ts", "derive/src/impl_struct.rs", "derive/src/impl_enum/mod.rs"]}
{"id": "C61", "title": "Nothing remains of ended streams and of clients that have left", "statement": "A stream that the server keeps track of has not ended, and the client that started it is still connected; streams of clients that have left end, and nothing of them is kept.", "quantifier": "every service, every number of clients and streams, every history of requests, cancellations, disconnections, stream items and server steps", "why_tests_cant": "leaks only show over unbounded histories, and depend on the order of items, cancellations and disconnections", "anchors": ["core/src/rpc/server.rs:SubscriberMap", "derive/src/rpc/impl_rpc.rs", "derive/src/rpc/backend_impl.rs", "src/rpc/servers/axum.rs", "src/rpc/servers/proxy.rs"]}
{"id": "C62", "title": "Prefixes and suffixes of names are used consistently", "statement": "With any CodegenOptions that leave names declarable, the generated module declares the schema constant, the alias or the interface of each type under its name with the prefixes and suffixes, and every reference in the module refers to one of these declarations.", "quantifier": "every program of derived types and rpc functions, every backend, all options", "why_tests_cant": "options are free strings, and references are spread over the texts of all schemas and types", "anchors": ["core/src/rpc/server.rs:CodegenOptions", "core/src/rpc/server.rs:Backend::generate_with_options", "derive/src/impl_struct.rs", "derive/src/impl_enum/mod.rs"]}
{"id": "C63", "title": "On a fair network every call gets its result", "statement": "In every execution without failures and panics in which whatever is due to happen happens some time, every request of a client gets executed and its promise resolves with what the method returned; the callback of a stream gets called with every item the stream has.", "quantifier": "every service, every number of clients, every infinite execution that is fair to the client (any interleaving, any other calls)", "why_tests_cant": "a liveness property of infinite executions: no finite test can show that something happens eventually under every fair schedule", "anchors": ["src/rpc/clients/static/websocket_client.ts:open_and_send", "src/rpc/clients/static/websocket_client.ts:onclose", "src/rpc/servers/axum.rs", "src/rpc/servers/proxy.rs", "derive/src/rpc/impl_rpc.rs"]}
{"id": "C64", "title": "The type table of the documentation is right", "statement": "Each row of the type table in the documentation shows, with T and U replaced by the schemas of two types, the schema of the type of that row at these two types; the schema mentions the parameters in the name of the type, every built-in type has a row, and the document shows the name and the schema of each row, under a link to the page of its type.", "quantifier": "every row, every program of derived types, every two types", "why_tests_cant": "the table shows schemas of placeholder types only; whether they are right for all types depends on how each impl embeds its parameters", "anchors": ["core/src/docs.rs:generate", "core/src/docs.rs:Line", "core/src/build_ins.rs", "build.rs"]}
{"id": "C65", "title": "The server receives the requests the client sends", "statement": "Whatever document the client sends as a text, the server reads that document from the text; in particular every argument that passes the client's validation and that serde writes for the type can be sent.", "quantifier": "every request (id, namespace, method, arguments), every JSON document (all texts, numbers, sizes and depths), every way of writing doubles that reading undoes", "why_tests_cant": "printing and parsing are recursive over documents of any size, with escapes for arbitrary characters and a limit that only shows at one depth", "anchors": ["src/rpc/clients/static/websocket_client.ts:send", "src/rpc/servers/axum.rs", "core/src/rpc/mod.rs:Request"]}
{"id": "C66", "title": "The client receives the responses the server sends", "statement": "Whatever document the server sends as a text, the client reads that document from the text, however large and however deeply nested it is.", "quantifier": "every JSON document (all texts, numbers, sizes and depths), every way of writing doubles that reading undoes", "why_tests_cant": "printing and parsing are recursive over documents of any size, with escapes for arbitrary characters", "anchors": ["src/rpc/clients/static/websocket_client.ts:onmessage", "src/rpc/servers/axum.rs", "core/src/rpc/mod.rs:Response"]}
{"id": "C67", "title": "Calls survive a lost connection", "statement": "When the connection of a client is lost and the client has connected again, a request that had been transmitted still gets its result, the callbacks of a stream go on being called, and new calls work as before.", "quantifier": "every service, every number of clients, every history (failures, panics and foreign clients included), every moment at which the connection is lost, every continuation", "why_tests_cant": "the connection can be lost between any two steps of client, network and server; that nothing ever arrives is a statement about all continuations", "anchors": ["src/rpc/clients/static/websocket_client.ts:reopen", "src/rpc/clients/static/websocket_client.ts:open", "src/rpc/clients/static/websocket_client.ts:request", "src/rpc/clients/static/websocket_client.ts:subscribe", "src/rpc/servers/axum.rs", "derive/src/rpc/impl_rpc.rs"]}
{"id": "C68", "title": "A stream stops when nobody listens any more", "statement": "When the last callback of a stream's store has been removed on the client, the server stops the stream: it takes at most one more item from it.", "quantifier": "every service, every number of clients, every history, every continuation", "why_tests_cant": "that a stream goes on or stops is a statement about all continuations; the removal can come between any two steps of client, network and server", "anchors": ["src/rpc/clients/static/websocket_client.ts:subscribe", "src/rpc/clients/static/websocket_client.ts:close", "core/src/rpc/mod.rs:Request", "derive/src/rpc/backend_impl.rs", "derive/src/rpc/impl_rpc.rs"]}
{"id": "C69", "title": "Exactly the JSON texts are read, as what they denote", "statement": "The server takes a frame for a document exactly if the frame is a JSON text (RFC 8259) that denotes this document and has at most 127 nested arrays and objects; the client does so without a limit. No text has two meanings, white space around it does not matter, a frame is a request exactly if it denotes the document of a request, and every other text is answered with an error without id.", "quantifier": "every text of any length and every JSON document; every rounding of numbers to doubles", "why_tests_cant": "the texts are infinitely many, of unbounded length and nesting; that nothing else is accepted and nothing is read wrongly is a statement about all of them", "anchors": ["src/rpc/servers/axum.rs", "src/rpc/clients/static/websocket_client.ts:onmessage", "core/src/rpc/mod.rs:Request"]}
{"id": "C70", "title": "A value handed back is the value", "statement": "A value that the client received from the server and hands back unchanged, as an argument of the same type, passes validation, arrives at the server as the same document (up to the notation of numbers and the order of members) and is accepted; values of untagged enums are read as the variant they were written for.", "quantifier": "every program of declarations, every type and every value of it that serde writes, every JSON document, every notation of doubles", "why_tests_cant": "values, documents and declarations are unbounded and recursive; rounding depends on each number", "anchors": ["core/src/build_ins.rs", "derive/src/impl_struct.rs", "derive/src/impl_enum/mod.rs", "src/rpc/clients/static/websocket_client.ts:request", "src/rpc/clients/static/websocket_client.ts:onmessage"]}
{"id": "C71", "title": "Arguments mean on the server what they mean in the client", "statement": "Two different values (up to undefined) that the generated validation accepts as an argument of a type are not received by the server as the same value of the type: no argument is silently turned into another on its way.", "quantifier": "every program of declarations, every type, every pair of JavaScript values that the schema of the type accepts", "why_tests_cant": "values and types are unbounded and recursive; JSON.stringify drops or merges some values without an error", "anchors": ["core/src/build_ins.rs", "derive/src/impl_struct.rs", "derive/src/impl_enum/mod.rs", "src/rpc/clients/static/websocket_client.ts:request", "src/rpc/servers/axum.rs:websocket"]}
{"id": "C72", "title": "A client that does not read cannot make the server hoard", "statement": "There is a bound on the number of unread responses and unprocessed requests that the server holds for one client.", "quantifier": "every service, every history of requests, schedules and disconnections", "why_tests_cant": "queues grow over histories of any length; no finite test shows a bound, or that there is none for every service", "anchors": ["src/rpc/servers/proxy.rs:BackendProxy", "src/rpc/servers/axum.rs:websocket", "derive/src/rpc/impl_rpc.rs", "core/src/rpc/server.rs:SubscriberMap"]}
{"id": "C73", "title": "Calls take effect one after the other, in an order that respects time", "statement": "If the promise of a request has resolved, or the callback of a stream has been called, before another call is made by any client, then the server executes the first call before the second, and the second sees its effects: the values both resolve with are those of one sequential execution.", "quantifier": "every service, every number of clients, every history of calls, schedules, failures and panics", "why_tests_cant": "concurrent histories are unbounded; no test covers every interleaving of clients, network and server", "anchors": ["src/rpc/servers/proxy.rs:BackendProxy", "src/rpc/servers/axum.rs:websocket", "src/rpc/clients/static/websocket_client.ts:request"]}
{"id": "C74", "title": "The calls of one client are executed in the order in which it made them", "statement": "The calls of one client that the server executes, in the order of execution, are a subsequence of the calls in the order in which the client made them.", "quantifier": "every service, every history of calls, frames, schedules and socket events", "why_tests_cant": "whether a later call can overtake an earlier one depends on when sockets are closed and opened, and on the order in which the server reads its connections", "anchors": ["src/rpc/clients/static/websocket_client.ts:open_and_send", "src/rpc/clients/static/websocket_client.ts:subscribe", "src/rpc/servers/axum.rs:websocket"]}
{"id": "C75", "title": "Checked projects can be relied on as a whole", "statement": "There is a terminating check on the declarations and function signatures of a project such that, if it succeeds, everything a user relies on holds of the generated file together: the whole file is read as client code followed by namespaces without clashes or unresolved names; every type has a schema and a type that accept what the server writes; what a schema accepts is of the type and can be read by the server; validation ends; results and stream items received are of the declared types; calls that pass validation execute the method and resolve with its result, and on a network that loses nothing and delivers everything some time they do so eventually, as do the items of streams. The example project of the repository passes the check.", "quantifier": "every project (any declarations and functions) that passes the check, every backend for it, every value, every history of the system", "why_tests_cant": "projects, values and histories are unbounded; the parts of the guarantee come from different layers and their conditions must fit together", "anchors": ["examples/axum/api.rs", "core/src/rpc/server.rs:generate", "derive/src/impl_struct.rs", "derive/src/impl_enum/mod.rs", "derive/src/rpc/impl_rpc.rs", "src/rpc/clients/static/websocket_client.ts"]}
{"id": "C76", "title": "Wrappers make no difference to what schemas accept", "statement": "Box, Arc, Rc, Cow, Cell, RefCell, Mutex, Weak and PhantomData anywhere in a program (in fields, variants, conversions, arguments, at any depth) change neither which values the generated schemas accept, nor what parsing returns, nor which values are rejected, although the texts of the schemas differ (a wrapped derived type is written out where the bare type is referred to). Without the wrappers, every function returns that returns with them.", "quantifier": "every program with usable names, every type, every JavaScript value, both modules loading", "why_tests_cant": "the texts differ, also recursively through the references, and there is no bound on programs, types and values", "anchors": ["core/src/build_ins.rs:impl_wrapper", "core/src/lib.rs:inline_schema", "derive/src/impl_struct.rs", "derive/src/impl_enum/mod.rs"]}
{"id": "C77", "title": "Validating a validated value again changes nothing", "statement": "What parsing a value with the generated schema of a type returns is accepted by the same schema again, and returned unchanged.", "quantifier": "every program with usable names, every type, every JavaScript value", "why_tests_cant": "whether a second validation takes the same alternatives as the first depends on all pairs of alternatives and all values, at any depth", "anchors": ["core/src/build_ins.rs:Result", "derive/src/impl_struct.rs", "derive/src/impl_enum/mod.rs", "derive/src/impl_enum/variant/*.rs"]}
{"id": "C78", "title": "New fields with a default make no difference to values without them", "statement": "Let fields with #[serde(default)] be added to structs and struct variants of a program. Every type then accepts the same values as before, returns the same for each of them and rejects the same, as long as no object in the value has a property with the name of a new field; and the server reads the same documents.", "quantifier": "every program and every way of adding such fields, every type, every value without these properties", "why_tests_cant": "old clients and stored documents can contain any value of any type, nested to any depth and in any alternative of an enum; a test compares two versions on a few of them", "anchors": ["derive/src/impl_struct.rs:expand_schema", "derive/src/impl_enum/variant/struct_variant.rs", "derive/src/impl_enum/mod.rs", "core/src/build_ins.rs"]}
{"id": "C79", "title": "What was valid stays valid when a program grows", "statement": "Let new variants be added to enums, fields with #[serde(default)] to structs and struct variants, and new types, at any places. Every value that a type's schema accepted is not rejected by its new schema, and is accepted if validating ends, as long as no object in the value has a property with the name of a new field; and the server goes on to read the documents it read.", "quantifier": "every program and every way of adding variants, fields with defaults and types, every type, every accepted value without properties of the new names", "why_tests_cant": "the new variant can come before, between or after the old ones in enums of all representations, which may be nested in each other and in collections to any depth, and another alternative may now match first; a test tries a few values on two versions of one type", "anchors": ["derive/src/impl_enum/mod.rs:expand_schema", "derive/src/impl_enum/variant", "derive/src/impl_struct.rs:expand_schema", "core/src/build_ins.rs"]}
{"id": "C80", "title": "New functions and namespaces change nothing for calls of the old ones", "statement": "Let functions be added to the namespaces of a backend, and namespaces to the backend, at any places. In every run of the server in which clients call functions the old backend has, by name, the two servers cannot be told apart: the same steps are possible, every client gets the same responses in the same order, the same streams are running, and the namespaces both have are in the same states. So also for the clients generated from the old backend: in every run of a project they observe the same on the old and on the new server.", "quantifier": "every backend, every backend with more functions and namespaces, every state of the namespaces, every schedule of connections, frames, cancellations, panics and broken sockets whose calls name functions of the old backend, with any arguments", "why_tests_cant": "every function, argument list and interleaving of connections and streams is different; a test calls some functions of two versions of one backend", "anchors": ["derive/src/rpc/backend_impl.rs:expand_backend_impl", "derive/src/rpc/impl_rpc.rs:expand", "core/src/rpc/server.rs", "src/rpc/servers/proxy.rs", "src/rpc/servers/axum.rs"]}
{"id": "C81", "title": "What is valid with new fields is valid without them", "statement": "Let fields be added to structs and struct variants, required ones or with defaults, and new types, at any places. Every value that a type's new schema accepts was accepted by the schema it had before (with which an older client validates), and what the old schema rejects the new one does not accept. The server without the new fields reads the documents the one with them reads, if the declarations that changed neither have deny_unknown_fields nor flattened fields.", "quantifier": "every program and every way of adding fields and types, every type, every accepted value, every document", "why_tests_cant": "the new fields can be of any type and in any place, in structs and enums of all representations nested in each other and in collections to any depth; a test tries a few values on two versions of one type", "anchors": ["derive/src/impl_struct.rs:expand_schema", "derive/src/impl_enum/mod.rs:expand_schema", "core/src/build_ins.rs"]}
{"id": "C82", "title": "TypeScript types when a program grows", "statement": "Let fields, required ones or with defaults, and types be added to a program: every value of a type's new TypeScript type is a value of the TypeScript type it had before, so code written for the old types can use what it gets. Let fields with defaults, variants and types be added: every value of the old TypeScript type, in which no object has a property of a new field's name, is a value of the new one, so code written for the old types still passes what the new types ask for. Both hold with properties that may be missing read strictly or leniently.", "quantifier": "every program and every way of adding fields, variants and types, every type, every value", "why_tests_cant": "the new fields can be of any type and in any place, in structs and enums of all representations nested in each other, flattened and in collections to any depth, and the types are recursive; a test compares a few values of two versions of one type", "anchors": ["derive/src/impl_struct.rs:expand_type_defs", "derive/src/impl_enum/mod.rs:expand_type_defs", "core/src/build_ins.rs"]}
{"id": "C83", "title": "Wrappers make no difference to TypeScript types", "statement": "Box, Arc, Rc, Cow, Cell, RefCell, Mutex, Weak and PhantomData anywhere in a program (in fields, variants, conversions, at any depth) change the texts of the generated TypeScript types, but not their values: a value has the type generated with the wrappers exactly if it has the type generated without them, also where one is written out and the other is a reference.", "quantifier": "every program with usable names, every type, every JavaScript value, missing properties read strictly or leniently", "why_tests_cant": "the texts differ, also recursively through the references, and operators group differently in them; there is no bound on programs, types and values", "anchors": ["core/src/build_ins.rs:impl_wrapper", "core/src/lib.rs:inline", "derive/src/impl_struct.rs:expand_type_defs", "derive/src/impl_enum/mod.rs:expand_type_defs"]}
{"id": "C84", "title": "The derive macro refuses only what it cannot support, and says why", "statement": "derive(Zod) on a struct or enum that serde can read succeeds, except for the documented limits (structs without fields, enums without variants, tuple structs in which a field with a default comes before one without), and then the error says which limit it is.", "quantifier": "every declaration: any number, order and style of fields and variants, with any serde attributes", "why_tests_cant": "skipped fields and variants, conversions, transparency, defaults and flattening combine in any order and number; the ui tests of the repository show four rejected declarations", "anchors": ["derive/src/impl_struct.rs:expand_schema", "derive/src/impl_enum/mod.rs:abort_empty", "derive/src/impl_enum/variant/struct_variant.rs:expand_schema", "derive/src/args.rs:Input", "derive/src/docs.rs:from_attrs", "tests/ui/zod/fail"]}
{"id": "C85", "title": "The order in which fields are written does not matter", "statement": "If the named fields of structs and of enum variants are written in another order, then the derive macro accepts both programs or neither, generation returns for both or for neither, evaluating the generated schema of a type throws for both programs or for neither, and if for neither, the two schemas accept the same values with results that are the same up to the order of properties, and reject the same values; the server reads the same documents. If flattened fields keep their relative order, the TypeScript types have the same values, too.", "quantifier": "every program, every reordering of the named fields of its structs and variants (nested and recursive declarations included), every type and every JavaScript value or JSON document", "why_tests_cant": "every permutation of every field list at once, through references between declarations, discriminated unions, flattened and skipped fields; tests have one order", "anchors": ["derive/src/impl_struct.rs:expand_schema", "derive/src/impl_enum/mod.rs:expand_schema", "derive/src/impl_enum/variant/struct_variant.rs:expand_schema"]}
{"id": "C86", "title": "The order in which variants are written does not decide what is accepted", "statement": "Let the variants of an enum be written in another order (and named fields as well, if one likes). Then the derive macro accepts both enums or neither. Generating the text of a schema or of a TypeScript type returns for both programs or for neither, and evaluating the schema throws for both or for neither. No value is accepted by the schema of one order and rejected by that of the other. If only internally and adjacently tagged enums are changed, the results are also the same up to the order of properties and validation ends for both or for neither. (For externally tagged and untagged enums the first variant that accepts decides the result, so that the result does depend on the order.) If the variants of each enum have different names, serde accepts the same documents, where named fields are read from objects. If no struct has flattened fields, the TypeScript types have the same values.", "quantifier": "all pairs of programs of which one comes from the other by permuting variants of enums or named fields of structs and variants, all types, values and documents", "why_tests_cant": "A z.union tries its options in order and a z.discriminatedUnion looks its option up, at any depth, through references to other types and recursion; tests fix an order.", "anchors": ["derive/src/impl_enum/mod.rs:expand_schema", "derive/src/impl_enum/mod.rs:expand_typ_defs", "derive/src/impl_enum/variant/mod.rs:expand_schema"]}
{"id": "C87", "title": "What a type is called does not matter", "statement": "If the types of a program are given other names or put into other namespaces, and all references follow, then the derive macro accepts both declarations or neither, generation returns for both programs or for neither, evaluating the generated schema of a type throws for both or for neither, and if for neither, the two schemas accept the same values with exactly the same results and reject the same values. The TypeScript types have the same values and the server reads the same documents.", "quantifier": "every program with usable names, every function from names to usable names for which both modules exist, every type and every JavaScript value or JSON document", "why_tests_cant": "names are pasted into the generated text and resolved again at run time, through any number of references, lazily and recursively; tests use a few fixed names", "anchors": ["derive/src/impl_struct.rs:expand", "derive/src/impl_enum/mod.rs:expand", "derive/src/args.rs:Input", "core/src/lib.rs:Namespace"]}
{"id": "C88", "title": "Documentation changes nothing else", "statement": "Adding, changing or removing the doc comments of types does not change what the generated module declares: the same namespaces with the same constants, types and functions. The derive macro accepts both declarations or neither, the methods of all types return the same texts, and the server reads the same documents.", "quantifier": "every program, every other documentation of its types, all options and all namespaces of the backend", "why_tests_cant": "documentation is pasted into the generated text; whether it can be taken for code depends on every character of it and on what surrounds it", "anchors": ["derive/src/docs.rs:RustDocs", "core/src/lib.rs:NamespaceMemberDefinition", "core/src/rpc/server.rs:generate"]}
{"id": "C89", "title": "The order of registration does not matter", "statement": "Two builds of the same program register the same types and functions. Their generated modules have the same namespaces in the same order, and each namespace has the same declarations: the same constants with the same schemas, the same types and the same client functions. Only the order of declarations inside a namespace can differ.", "quantifier": "every program whose names and documentation can be written into JavaScript, every order in which the linker lets inventory collect what is registered, all options and all namespaces of the backend", "why_tests_cant": "the order is chosen by the linker and differs between platforms and builds; a test sees one order", "anchors": ["core/src/lib.rs:NamespaceMemberDefinition", "core/src/rpc/server.rs:generate_with_options", "derive/src/impl_inventory.rs:expand"]}
{"id": "C90", "title": "A type and the type it stands for are interchangeable", "statement": "A newtype struct, a transparent struct around one field, and a type declared with `from` or `try_from` can be replaced by the type they stand for: the schemas accept the same values with the same results and reject the same values, the TypeScript types have the same values, and serde reads and writes the same documents (with `try_from` the conversion may still fail). Likewise the schema and type used where a type is referred to are equivalent to those of the type itself.", "quantifier": "all programs, all declarations that stand for another type, through references, aliases and recursion, all JavaScript values, all JSON documents", "why_tests_cant": "the schema of an alias is a lazy reference into the module, so that the two agree depends on all other declarations; a test tries some values", "anchors": ["derive/src/impl_struct.rs:expand_schema", "derive/src/impl_struct.rs:expand_type_def", "derive/src/impl_enum/mod.rs:expand_schema", "core/src/lib.rs:inline_schema"]}
{"id": "C91", "title": "Aliases can be used anywhere inside of a type", "statement": "Two types that are the same except that in some places, at any depth (inside vectors, options, sets, map values, tuples, results, wrappers), one has an alias (newtype, transparent struct, type with `from` or `try_from`) where the other has what it stands for, are interchangeable: their schemas accept the same values with the same results, their TypeScript types have the same values, and serde reads and writes the same documents.", "quantifier": "all programs, all pairs of types that are the same up to aliases, all JavaScript values, all JSON documents", "why_tests_cant": "there are infinitely many types that contain an alias, and their schemas differ in text", "anchors": ["core/src/build_ins.rs:schema", "core/src/lib.rs:inline_schema", "derive/src/impl_struct.rs:expand_schema", "derive/src/impl_struct.rs:expand_type_def"]}
{"id": "C92", "title": "An alias may be replaced by what it stands for in all declarations", "statement": "If in all declarations of a program an alias (newtype, transparent struct, type with `from` or `try_from`) is replaced by the type it stands for, the schema of every type, written or referred to, and every exported schema accept the same values with the same results as before, and, unless the alias has `try_from` or stands for PhantomData, serde reads every document it read before. It reads no further documents either, unless a field of the replacing type may be missing where a field of the alias may not, or the replacing type is a string. If the alias is written as it is read and no `into` mentions it, serde also writes every document it wrote before, and no others unless the replacing type is an Option or a string.", "quantifier": "all programs, all aliases that do not mention themselves, all types, all JavaScript values, all JSON documents", "why_tests_cant": "all declarations change at once, references turn into written schemas and the other way round, and the declarations may be recursive", "anchors": ["core/src/lib.rs:inline_schema", "derive/src/impl_struct.rs:expand_schema", "derive/src/impl_enum/mod.rs:expand_schema", "core/src/build_ins.rs:schema"]}
