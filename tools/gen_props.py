import json
P=[]
def p(id,title,statement,quantifier,why,anchors):
    P.append(dict(id=id,title=title,statement=statement,quantifier=quantifier,why_tests_cant=why,anchors=anchors))

# ---------------- schemas ----------------
p("C01","Bounded integer schemas accept exactly the Rust range",
  "For u8, u16, u32, i8, i16, i32 the text returned by ZodType::schema(), read as a zod expression, accepts a JavaScript number iff that number is an integer inside the Rust type's range; it accepts nothing that is not a number.",
  "every JavaScript value (every finite number, infinities, NaN, and non-numbers) and each of the six integer types",
  "the accepted set is infinite; a unit test compares strings or a few sample numbers, it cannot rule out an off-by-one bound for all numbers",
  ["core/src/build_ins.rs:impl_primitive!"])
p("C02","Wide integer schemas accept every value Rust can send",
  "For u64, u128, usize, i64, i128, isize: whatever integer of the type is serialized, after JavaScript has rounded it to a double, schema() accepts it (the literal bound is rounded by JavaScript too, so this is a statement about monotone rounding).",
  "every integer in the range of each of the six types",
  "2^64 to 2^128 values, and the interesting ones are at rounding boundaries",
  ["core/src/build_ins.rs:impl_primitive!"])
p("C03","Generated schema text is valid zod code",
  "For every Rust type built from the supported building blocks and derived types whose names are JavaScript identifiers, the string returned by schema() and by inline_schema() lexes and parses as a JavaScript expression and evaluates, without throwing, to a zod schema.",
  "every type expression, of any nesting depth, over every program of derived structs and enums",
  "types nest arbitrarily; tests only compare fixed strings produced by the same format strings and never run them",
  ["core/src/build_ins.rs","derive/src/impl_struct.rs:Struct::expand_schema","derive/src/impl_enum/mod.rs:Enum::expand_schema"])
p("C04","Validated input deserializes (schema soundness)",
  "If schema() of a type accepts a JavaScript value, then JSON.stringify of the parsed result is JSON that serde deserializes as that Rust type.",
  "every type in the supported fragment, every program of derived types, every JavaScript value",
  "quantifies over all types and all values at once; needs induction on both",
  ["core/src/build_ins.rs","derive/src/impl_struct.rs","derive/src/impl_enum/mod.rs","derive/src/impl_enum/variant/*.rs"])
p("C05","Serialized output validates (schema completeness)",
  "If serde serializes a value of a Rust type to some JSON, then the JavaScript value JSON.parse makes of it is accepted by schema() of that type.",
  "every type in the supported fragment, every program of derived types, every value of the type",
  "quantifies over all types and all values at once; needs induction on both",
  ["core/src/build_ins.rs","derive/src/impl_struct.rs","derive/src/impl_enum/mod.rs","derive/src/impl_enum/variant/*.rs"])
p("C06","TypeScript type and zod schema agree",
  "Every value accepted by schema() of a type inhabits the TypeScript type printed by type_def() of the same type.",
  "every type in the supported fragment, every program, every JavaScript value",
  "the two texts are produced by two independent code paths; agreement must hold for every nesting, tagging mode and attribute combination",
  ["core/src/build_ins.rs","derive/src/impl_struct.rs:expand_type_def","derive/src/impl_enum/mod.rs:expand_typ_defs"])
p("C07","Generated TypeScript type text is valid and unambiguous",
  "For every supported type, type_def() and inline() print text that parses as a TypeScript type, and operator precedence in the text groups unions and intersections as intended.",
  "every type expression of any nesting depth, every program of derived types",
  "precedence errors appear only for particular nestings (e.g. an intersection with an unparenthesised union)",
  ["core/src/build_ins.rs","derive/src/impl_struct.rs:expand_type_defs","derive/src/impl_enum/field.rs"])
p("C08","Schema generation terminates exactly for non-recursive expansion",
  "schema() / type_def() returns iff the chain of nested trait calls it triggers is finite; in particular it returns for every program without recursive types, and type_def() of any type that contains itself behind Box/Vec/Option/... never returns.",
  "every program of derived types, every type, both methods",
  "non-termination cannot be observed by a test; termination must hold for all type graphs",
  ["core/src/lib.rs:ZodType","core/src/build_ins.rs:impl_wrapper!","derive/src/impl_struct.rs:Struct::expand"])
p("C09","Derived types are referenced by qualified name",
  "inline_schema() of a derived type is `z.lazy(() => NS.NAME)` and inline() prints `NS.NAME` with NS the namespace's NAME and NAME the serde (deserialize) name, whatever the fields, variants and attributes are (except from/try_from); so using a type never depends on its body.",
  "every derivable struct or enum declaration",
  "ranges over all declarations",
  ["derive/src/impl_struct.rs:Struct::expand","derive/src/impl_enum/mod.rs:Enum::expand"])
p("C10","Skipped fields and variants leave no trace",
  "Adding, removing or changing fields or variants marked skip/skip_deserializing never changes the generated schema or TypeScript type.",
  "every struct or enum declaration and every insertion of skipped fields/variants at any position",
  "all declarations and all positions",
  ["derive/src/impl_struct.rs:expand","derive/src/impl_enum/mod.rs:expand","derive/src/impl_enum/field.rs:VariantFields::new"])
p("C11","Default ordering in tuple structs is enforced exactly",
  "Deriving on a tuple struct with at least two kept fields fails with `non-default field follows default field` iff some kept field without default comes after a kept field with a default.",
  "every tuple struct declaration, any number of fields",
  "all field lists",
  ["derive/src/impl_struct.rs:Struct::expand_schema"])
p("C12","Wrappers and look-alike collections are transparent",
  "Box, Arc, Rc, Cow, Cell, RefCell, Mutex, Weak, PhantomData of T produce the same schema and type text as T; BTreeSet/BTreeMap/[T;N] the same as HashSet/HashMap/Vec; in any context and at any depth.",
  "every type T and any nesting of wrappers",
  "nesting is unbounded",
  ["core/src/build_ins.rs:impl_wrapper!","core/src/build_ins.rs:impl_shadow!"])
p("C13","Enum schemas match serde's four tagging modes",
  "For every enum (external, internal, adjacent, untagged; unit, newtype, tuple, struct variants) the schema accepts exactly one alternative per non-skipped variant, in the JSON shape serde uses for that variant.",
  "every enum declaration with any number of variants and fields",
  "tests cover two variants at a time; must hold for all variant lists and payload types",
  ["derive/src/impl_enum/mod.rs","derive/src/impl_enum/variant/*.rs","derive/src/impl_enum/field.rs"])
p("C14","Exported declarations are syntactically valid TypeScript",
  "For each registered type, the declaration emitted by generate() (`export interface NAME ...` or `export type NAME = ...;`) is valid TypeScript: an interface body is a single object type.",
  "every derivable struct or enum declaration",
  "all declarations, including tuple structs and flattened fields which no test renders through generate()",
  ["core/src/rpc/server.rs:generate_with_options","derive/src/impl_struct.rs:Struct::expand"])
# ---------------- docs ----------------
p("C15","Doc comments render as one well formed comment",
  "The docs text of a type is empty or exactly one `/** ... */` block whose lines are the trimmed doc lines each prefixed by `* `, without the leading blank ones and without one final blank one; it ends the comment exactly at its end provided no doc line contains `*/`.",
  "every list of attributes / doc strings",
  "all strings; a single `*/` inside a doc line breaks the generated module",
  ["derive/src/docs.rs"])
p("C16","Markdown escaping is complete and idempotent",
  "The type table's escape() output never contains `<`, `>` or `|`, decodes back to the input when the input has no entity of its own, and escaping twice equals escaping once.",
  "every input string",
  "all strings",
  ["core/src/docs.rs:escape"])
# ---------------- codegen ----------------
p("C17","generate() emits the client prelude and each namespace once, sorted",
  "The output of generate() is the client code followed by one `export namespace` block per backend namespace that has at least one registered type or rpc member, in strictly increasing name order.",
  "every set of registered types and rpc members in any registration order, every backend, every client prelude",
  "all registries and link orders",
  ["core/src/rpc/server.rs:Backend::generate_with_options","core/src/lib.rs:NamespaceMemberDefinition::collect"])
p("C18","generate() emits every member of the backend's namespaces and nothing else",
  "Inside a namespace block appear exactly the registered types of that namespace (each once, in registration order) followed by exactly its rpc functions (each once, in registration order); members of namespaces outside the backend do not appear.",
  "every registry, every backend",
  "all registries and link orders",
  ["core/src/rpc/server.rs:Backend::generate_with_options"])
p("C19","Output is independent of cross-namespace link order",
  "Two registration orders that agree on the relative order inside each namespace produce identical output.",
  "every pair of such registration orders",
  "linker order is not controlled by tests",
  ["core/src/rpc/server.rs:Backend::generate_with_options","core/src/lib.rs:NamespaceMemberDefinition::collect"])
p("C20","Registry views partition the registry",
  "collect(), members(), zod_namespaces(), rpc_members() return, for each namespace name, exactly the registered members of that namespace in registration order; nothing is lost or duplicated.",
  "every registry and every namespace name",
  "all registries",
  ["core/src/lib.rs:Namespace::members","core/src/lib.rs:NamespaceMemberDefinition::collect","core/src/rpc/server.rs:rpc_members","core/src/rpc/server.rs:zod_namespaces","core/src/rpc/codegen/mod.rs:RpcNamespace::rpc_members"])
p("C21","Every type reference in the generated module is declared in it",
  "Each NS.NAME reference occurring in the generated schemas and types resolves to a declaration emitted by the same generate() call.",
  "every program of derived types, every backend",
  "closure under references is a global property of all programs",
  ["core/src/rpc/server.rs:generate_with_options","derive/src/impl_struct.rs","derive/src/impl_enum/mod.rs"])
p("C22","Client stubs carry the method's name, namespace and argument list",
  "The emitted TypeScript function for a method/stream names each argument once in order with its type, validates exactly the argument tuple in order, and forwards to request/subscribe with the registered namespace NAME and the method's name.",
  "every rpc member with any number of arguments",
  "all signatures",
  ["core/src/rpc/codegen/mod.rs:RpcMember::decl","derive/src/rpc/impl_rpc.rs:expand_inventory_submit"])
# ---------------- wire ----------------
p("C23","Client request message decodes to the same call",
  "The JSON message the client builds for (id, namespace, method, args) is decoded by the server into an Exec request with the same id whose remaining members are exactly namespace, method and args.",
  "every id, namespace, method and argument list",
  "all payloads",
  ["core/src/rpc/mod.rs:Request","src/rpc/clients/static/websocket_client.ts:execute"])
p("C24","Request decoding accepts exactly the documented shapes",
  "A message is accepted iff it is an object with the single key exec or cancelStream and a valid id; everything else is rejected, and for exec every other member is preserved (last occurrence of a key wins).",
  "every JSON document",
  "all documents",
  ["core/src/rpc/mod.rs:Request"])
p("C25","Calls are dispatched to the method they name with the arguments in order",
  "An Exec whose namespace is a backend namespace, whose method is one of its methods and whose args array decodes positionally runs exactly that method of that namespace with exactly those arguments in order; no other namespace's state is touched.",
  "every backend, every namespace/method table, every JSON argument list",
  "all tables and payloads",
  ["derive/src/rpc/impl_rpc.rs","derive/src/rpc/backend_impl.rs"])
p("C26","A bad call is answered by one error carrying its id and changes nothing",
  "An Exec with unknown namespace, unknown method, missing/extra/ill-typed args yields exactly one error response with the same id, runs no method, leaves backend state and subscriptions unchanged.",
  "every such request in every server state",
  "all malformed payloads in all states",
  ["derive/src/rpc/backend_impl.rs:handle_request","core/src/rpc/mod.rs:Response::error"])
p("C27","Every generated stub can be served",
  "A call made through a generated client stub (validated arguments) is decoded and dispatched by the server derived from the same code, for every method signature and namespace.",
  "every backend, every method signature including zero arguments and renamed namespaces",
  "all signatures; fails at corners (no arguments, #[namespace(name=..)]) that tests do not exercise",
  ["derive/src/rpc/impl_rpc.rs:expand_req_variant_decl","derive/src/rpc/backend_impl.rs:expand_req_enum","derive/src/impl_namespace.rs","core/src/rpc/codegen/mod.rs:decl"])
p("C28","Results that cannot be serialized become errors with the same id",
  "Response::method / Response::stream produce a method/stream response with the given id when the value serializes and an error response with the same id otherwise.",
  "every id and every serialization outcome",
  "all values",
  ["core/src/rpc/mod.rs:Response::method","core/src/rpc/mod.rs:Response::stream"])
# ---------------- server ----------------
p("C29","Requests are executed one at a time in arrival order",
  "Over every schedule, the backend state is the result of running the accepted requests sequentially in the order they were accepted from all connections together; no request is dropped, duplicated or overlapped while the server task is alive.",
  "every interleaving of connections, frames, method completions, stream tasks, cancellations and disconnects",
  "all schedules",
  ["src/rpc/servers/proxy.rs:BackendProxy::new","derive/src/rpc/backend_impl.rs:handle_request"])
p("C30","Each request gets exactly its replies, on its own connection, in order",
  "The non-stream responses put on a connection are exactly the replies to the requests accepted from that connection, in order: one method response (or error) with the same id per exec of a method, one id-less error per unparsable message, none for cancel and for a started stream; nothing from another connection.",
  "every schedule and every connection",
  "all schedules",
  ["src/rpc/servers/proxy.rs","src/rpc/servers/axum.rs:websocket","derive/src/rpc/impl_rpc.rs"])
p("C31","Stream items arrive in order without loss, duplication or mix-up",
  "The stream responses of one subscription put on its connection are, at every moment, exactly the first n items its stream produced, tagged with the id of the request that started it.",
  "every schedule, every stream (finite or infinite), every number of concurrent streams",
  "all schedules and stream contents",
  ["derive/src/rpc/impl_rpc.rs:expand_req_variant_impl_stream"])
p("C32","Responses reach the socket in channel order",
  "What is written to a websocket is always a prefix of the responses produced for that connection, in production order; while the connection lives nothing is lost.",
  "every schedule and connection",
  "all schedules",
  ["src/rpc/servers/axum.rs:websocket","src/rpc/servers/proxy.rs:ProxyRx"])
p("C33","A cancelled stream stops",
  "Once a cancelStream naming a subscription has been processed, its task produces no more items after it next yields; a suspended task never runs again, and cancellation is permanent.",
  "every schedule and every stream",
  "depends on the interleaving of the cancel with the running task",
  ["derive/src/rpc/backend_impl.rs:handle_request","core/src/rpc/server.rs:SubscriberMap"])
p("C34","Cancelling affects only the named subscription of the caller",
  "Processing cancelStream{id} from a connection never stops a stream belonging to another connection, and cancelling an id that is not active does nothing.",
  "every schedule with any number of connections using any ids",
  "needs two clients with colliding ids and a particular interleaving",
  ["derive/src/rpc/backend_impl.rs:handle_request","src/rpc/servers/proxy.rs:BackendProxy::new"])
p("C35","A disconnecting client cannot take the server down",
  "Whatever one client does (including disconnecting at any point), the server keeps serving the requests of the other clients.",
  "every schedule, every crash point of a client",
  "needs a disconnect exactly while a method is running or queued",
  ["derive/src/rpc/impl_rpc.rs:expand_req_variant_impl_method","src/rpc/servers/proxy.rs:BackendProxy::new"])
p("C36","An active stream can always be cancelled",
  "While a stream started with id is still running, cancelStream{id} from its owner stops it; starting another stream with an id in use does not make the first one uncancellable.",
  "every schedule and id assignment",
  "depends on id reuse across histories",
  ["derive/src/rpc/backend_impl.rs:handle_request"])
p("C37","Subscription bookkeeping is exact",
  "The set of ids the server tracks is exactly the ids of streams started and not cancelled since (ids of finished streams stay until cancelled or overwritten); requests that start no stream do not change it.",
  "every history of requests",
  "all histories",
  ["core/src/rpc/server.rs:SubscriberMap","derive/src/rpc/backend_impl.rs:handle_request"])
p("C38","Shutting the server down aborts every tracked stream",
  "When the server task ends (normally or by panic) every stream still tracked is aborted; after that no suspended tracked stream produces an item.",
  "every schedule up to the shutdown",
  "all schedules and crash points",
  ["core/src/rpc/server.rs:SubscriberMap::drop","src/rpc/servers/proxy.rs"])
p("C39","send() reports disconnection exactly when the server task has ended",
  "ProxyTx::send returns Err(Disconnected) iff the server task is gone; otherwise the request is queued behind all earlier ones.",
  "every schedule",
  "all schedules",
  ["src/rpc/servers/proxy.rs:ProxyTx::send"])
p("C40","Non-text and unparsable frames are harmless",
  "A binary/ping/pong frame has no effect; an unparsable text frame produces one id-less error for that connection and leaves the backend state and all subscriptions unchanged.",
  "every frame in every server state",
  "all inputs and states",
  ["src/rpc/servers/axum.rs:websocket","src/rpc/servers/proxy.rs"])
# ---------------- client ----------------
p("C41","Request ids are unique and increasing",
  "Over any history the ids used by request() and subscribe() are pairwise distinct and strictly increasing in call order.",
  "every history of client calls and events",
  "all histories",
  ["src/rpc/clients/static/websocket_client.ts:request","src/rpc/clients/static/websocket_client.ts:subscribe"])
p("C42","A request resolves with its own response only",
  "The promise returned by request() resolves at most once, and only with the data of the first method/stream message whose id equals the request's id received after the call (as long as ids are distinct, see C41).",
  "every history of calls and incoming messages in any order",
  "all histories, out-of-order and foreign responses",
  ["src/rpc/clients/static/websocket_client.ts:request"])
p("C43","Every answered request settles",
  "When the server answers a request (with a result or an error), the promise returned by request() settles.",
  "every history and every response kind",
  "error responses are never produced in tests",
  ["src/rpc/clients/static/websocket_client.ts:websocketStore","src/rpc/clients/static/websocket_client.ts:request"])
p("C44","Subscription callbacks see exactly their stream's items",
  "A callback subscribed to a store is invoked exactly once, in order, with the data of each message bearing the store's id received while it is subscribed, and never with other data.",
  "every history",
  "all histories and interleavings of several stores",
  ["src/rpc/clients/static/websocket_client.ts:subscribe"])
p("C45","No subscription is leaked by request()",
  "After a request settles its internal subscription is gone: the set of live subscriptions is exactly the unsettled requests plus the store callbacks not unsubscribed.",
  "every history",
  "all histories",
  ["src/rpc/clients/static/websocket_client.ts:request"])
p("C46","Messages are sent once, in call order, on a stable connection",
  "As long as no socket closes or fails, every message passed to send is transmitted exactly once and in call order, whether it was issued before or after the socket opened.",
  "every history without close/error events",
  "all interleavings of calls with the opening handshake",
  ["src/rpc/clients/static/websocket_client.ts:open_and_send","src/rpc/clients/static/websocket_client.ts:open"])
p("C47","No request is lost when the client reconnects",
  "A message handed to the client is eventually transmitted even if the socket closes or a connection attempt fails in between.",
  "every history of socket events",
  "needs a particular order of close/open events of two sockets",
  ["src/rpc/clients/static/websocket_client.ts:open","src/rpc/clients/static/websocket_client.ts:reopen","src/rpc/clients/static/websocket_client.ts:close"])
p("C48","Reconnect delays follow the backoff table",
  "The n-th consecutive reconnect attempt since the last successful open waits 100, 200, 1000, then always 3000 ms; the delay never decreases between opens and a successful open resets it.",
  "every history of closes and opens, any number of consecutive failures",
  "unbounded number of failures",
  ["src/rpc/clients/static/websocket_client.ts:reopenTimeout","src/rpc/clients/static/websocket_client.ts:open"])
p("C49","End to end: a stub call resolves with the method's result",
  "With one client and one server connected and no disconnect, every request() whose call decodes resolves with the JSON of that method's return value, executed on the state left by the earlier calls.",
  "every sequence of requests and every schedule of client, network and server",
  "all schedules of the composed system",
  ["src/rpc/clients/static/websocket_client.ts","src/rpc/servers/axum.rs","src/rpc/servers/proxy.rs","derive/src/rpc/*.rs"])
p("C50","Validating a value against a generated schema terminates",
  "Calling parse of the schema of any exported type on any JavaScript value ends (with a value or an error); it does not recurse forever.",
  "every program of (mutually recursive) derived types, every type and every JavaScript value of any depth",
  "ranges over all recursive type graphs and all values",
  ["core/src/build_ins.rs","derive/src/zod/impl_enum/mod.rs","derive/src/zod/impl_struct.rs"])
p("C51","What the server writes is a value of the TypeScript type",
  "The JSON document serde writes for a value of an exported type is, once parsed by JavaScript, a value of the type's generated TypeScript type. (Results of rpc calls are not validated by the client, so nothing else makes their types true.)",
  "every program of derived types, every type and every value of it",
  "ranges over all types and values",
  ["core/src/build_ins.rs:type_def","derive/src/zod/impl_struct.rs","derive/src/zod/impl_enum/mod.rs","src/rpc/clients/static/websocket_client.ts:request"])
p("C52","The generated module is valid TypeScript and contains exactly what was registered",
  "What generate() writes after the client code is a syntactically valid TypeScript module: one namespace for each of the backend's namespaces that has types or functions, sorted by name, each declaring exactly the registered types (a schema constant and a type) followed by exactly the registered functions.",
  "every program of derived types and rpc functions, every registration order, every backend",
  "syntactic validity of the output for all programs cannot be sampled",
  ["core/src/rpc/server.rs:Backend::generate_with_options","core/src/lib.rs:NamespaceMemberDefinition","core/src/rpc/codegen/mod.rs:RpcMember::decl","derive/src/rpc/*.rs"])
p("C53","Generated code reaches zod and the client functions",
  "Every use of z, request and subscribe in the generated schemas and stubs refers to the names the client code declares, not to an argument, function, type or namespace of the program.",
  "every program of derived types and rpc functions, every backend",
  "name capture depends on all names of the program",
  ["core/src/rpc/codegen/mod.rs:RpcMember::decl","core/src/rpc/server.rs:Backend::generate_with_options"])
p("C54","The rpc macro accepts exactly the functions it can serve",
  "An impl block is accepted iff each of its functions takes &mut self first, is async or returns a stream but not both, and has plain names as arguments; then the functions are registered in order with their names, argument names and types, as methods iff they are async, with result type () if they have none.",
  "every impl block",
  "all signatures",
  ["derive/src/rpc/args.rs:RpcItem::from_ast","derive/src/rpc/impl_rpc.rs:expand_inventory_submit"])
p("C55","No name is declared twice in a namespace of the generated module",
  "If different types of a namespace have different names and so do different functions, then no namespace of the generated module declares two values or two types with one name, and no two namespaces have the same name.",
  "every program of derived types and rpc functions, every backend",
  "depends on all names of the program",
  ["core/src/rpc/server.rs:Backend::generate_with_options","core/src/rpc/codegen/mod.rs:RpcMember::decl"])
p("C56","Generated clients cannot bring down the server",
  "As long as the network does not fail, no method panics and only generated clients connect, the server task never stops, whatever calls the clients make, whenever they close their stores and however messages, close events and the work of the server interleave.",
  "every service, every number of clients, every schedule of client calls, network deliveries, close events and server steps",
  "the failing interleaving needs a close event, a new connection and a running method at the same time; all schedules are infinite in number",
  ["src/rpc/clients/static/websocket_client.ts","src/rpc/servers/axum.rs","src/rpc/servers/proxy.rs","derive/src/rpc/impl_rpc.rs"])
p("C57","Calls that pass validation reach the method",
  "If the arguments of a generated client function pass its validation, the server decodes the message that is sent to a call of the corresponding method with these arguments, and a method then runs once with them and its result is the reply.",
  "every program of derived types, every backend and function, every list of argument values",
  "relates generated schemas, generated stubs, serde and the dispatch of the server for all types and values",
  ["core/src/rpc/codegen/mod.rs:RpcMember::decl","core/src/build_ins.rs:schema","derive/src/rpc/impl_rpc.rs","core/src/rpc/server.rs","src/rpc/clients/static/websocket_client.ts:request"])
p("C58","Duplicate types are rejected at compile time",
  "A crate whose derived types refer to existing namespaces compiles iff no two types of a namespace have the same name in the generated module.",
  "every set of namespaces and derived types",
  "concerns programs that do not compile and all combinations of names",
  ["derive/src/lib.rs:expand_type_registration","derive/src/lib.rs:format_ident_for_registration","derive/src/impl_namespace.rs:expand","derive/src/impl_inventory.rs:expand"])
p("C59","The client code and the generated namespaces fit together in one file",
  "The file made with the websocket client is a sequence of declarations that declares z, request, subscribe and Store, followed by the namespaces; no value is declared twice at its top level, and no namespace hides a value of the browser that the client code uses.",
  "every program of derived types and rpc functions, every backend",
  "depends on the names of all namespaces and on the whole text of the client code",
  ["src/rpc/clients/static/websocket_client.ts","src/rpc/clients/mod.rs:WebsocketClient::get","core/src/rpc/server.rs:Backend::generate_with_options"])
p("C60","What a client function gives its caller has the declared type",
  "In any history of clients, network and server: if the promise returned by a generated client function resolves with a value, or a callback given to the store it returned is called with one, then the value is of the type that the generated module declares for it, provided the backend implements the functions with the declared Rust types.",
  "every program of derived types and rpc functions, every backend that implements them, every history of the system (schedules, failures, other clients included), every result",
  "combines code generation, serde, dispatch, the server loop, the network and the client, for all programs and all interleavings",
  ["derive/src/rpc/mod.rs","core/src/rpc/codegen/mod.rs","src/rpc/servers/axum.rs","src/rpc/clients/static/websocket_client.ts","derive/src/impl_struct.rs","derive/src/impl_enum/mod.rs"])
p("C61","Nothing remains of ended streams and of clients that have left",
  "A stream that the server keeps track of has not ended, and the client that started it is still connected; streams of clients that have left end, and nothing of them is kept.",
  "every service, every number of clients and streams, every history of requests, cancellations, disconnections, stream items and server steps",
  "leaks only show over unbounded histories, and depend on the order of items, cancellations and disconnections",
  ["core/src/rpc/server.rs:SubscriberMap","derive/src/rpc/impl_rpc.rs","derive/src/rpc/backend_impl.rs","src/rpc/servers/axum.rs","src/rpc/servers/proxy.rs"])
p("C62","Prefixes and suffixes of names are used consistently",
  "With any CodegenOptions that leave names declarable, the generated module declares the schema constant, the alias or the interface of each type under its name with the prefixes and suffixes, and every reference in the module refers to one of these declarations.",
  "every program of derived types and rpc functions, every backend, all options",
  "options are free strings, and references are spread over the texts of all schemas and types",
  ["core/src/rpc/server.rs:CodegenOptions","core/src/rpc/server.rs:Backend::generate_with_options","derive/src/impl_struct.rs","derive/src/impl_enum/mod.rs"])
p("C63","On a fair network every call gets its result",
  "In every execution without failures and panics in which whatever is due to happen happens some time, every request of a client gets executed and its promise resolves with what the method returned; the callback of a stream gets called with every item the stream has.",
  "every service, every number of clients, every infinite execution that is fair to the client (any interleaving, any other calls)",
  "a liveness property of infinite executions: no finite test can show that something happens eventually under every fair schedule",
  ["src/rpc/clients/static/websocket_client.ts:open_and_send","src/rpc/clients/static/websocket_client.ts:onclose","src/rpc/servers/axum.rs","src/rpc/servers/proxy.rs","derive/src/rpc/impl_rpc.rs"])
p("C64","The type table of the documentation is right",
  "Each row of the type table in the documentation shows, with T and U replaced by the schemas of two types, the schema of the type of that row at these two types; the schema mentions the parameters in the name of the type, every built-in type has a row, and the document shows the name and the schema of each row, under a link to the page of its type.",
  "every row, every program of derived types, every two types",
  "the table shows schemas of placeholder types only; whether they are right for all types depends on how each impl embeds its parameters",
  ["core/src/docs.rs:generate","core/src/docs.rs:Line","core/src/build_ins.rs","build.rs"])
p("C65","The server receives the requests the client sends",
  "Whatever document the client sends as a text, the server reads that document from the text; in particular every argument that passes the client's validation and that serde writes for the type can be sent.",
  "every request (id, namespace, method, arguments), every JSON document (all texts, numbers, sizes and depths), every way of writing doubles that reading undoes",
  "printing and parsing are recursive over documents of any size, with escapes for arbitrary characters and a limit that only shows at one depth",
  ["src/rpc/clients/static/websocket_client.ts:send","src/rpc/servers/axum.rs","core/src/rpc/mod.rs:Request"])
p("C66","The client receives the responses the server sends",
  "Whatever document the server sends as a text, the client reads that document from the text, however large and however deeply nested it is.",
  "every JSON document (all texts, numbers, sizes and depths), every way of writing doubles that reading undoes",
  "printing and parsing are recursive over documents of any size, with escapes for arbitrary characters",
  ["src/rpc/clients/static/websocket_client.ts:onmessage","src/rpc/servers/axum.rs","core/src/rpc/mod.rs:Response"])
p("C67","Calls survive a lost connection",
  "When the connection of a client is lost and the client has connected again, a request that had been transmitted still gets its result, the callbacks of a stream go on being called, and new calls work as before.",
  "every service, every number of clients, every history (failures, panics and foreign clients included), every moment at which the connection is lost, every continuation",
  "the connection can be lost between any two steps of client, network and server; that nothing ever arrives is a statement about all continuations",
  ["src/rpc/clients/static/websocket_client.ts:reopen","src/rpc/clients/static/websocket_client.ts:open","src/rpc/clients/static/websocket_client.ts:request","src/rpc/clients/static/websocket_client.ts:subscribe","src/rpc/servers/axum.rs","derive/src/rpc/impl_rpc.rs"])
p("C68","A stream stops when nobody listens any more",
  "When the last callback of a stream's store has been removed on the client, the server stops the stream: it takes at most one more item from it.",
  "every service, every number of clients, every history, every continuation",
  "that a stream goes on or stops is a statement about all continuations; the removal can come between any two steps of client, network and server",
  ["src/rpc/clients/static/websocket_client.ts:subscribe","src/rpc/clients/static/websocket_client.ts:close","core/src/rpc/mod.rs:Request","derive/src/rpc/backend_impl.rs","derive/src/rpc/impl_rpc.rs"])
p("C69","Exactly the JSON texts are read, as what they denote",
  "The server takes a frame for a document exactly if the frame is a JSON text (RFC 8259) that denotes this document and has at most 127 nested arrays and objects; the client does so without a limit. No text has two meanings, white space around it does not matter, a frame is a request exactly if it denotes the document of a request, and every other text is answered with an error without id.",
  "every text of any length and every JSON document; every rounding of numbers to doubles",
  "the texts are infinitely many, of unbounded length and nesting; that nothing else is accepted and nothing is read wrongly is a statement about all of them",
  ["src/rpc/servers/axum.rs","src/rpc/clients/static/websocket_client.ts:onmessage","core/src/rpc/mod.rs:Request"])
p("C70","A value handed back is the value",
  "A value that the client received from the server and hands back unchanged, as an argument of the same type, passes validation, arrives at the server as the same document (up to the notation of numbers and the order of members) and is accepted; values of untagged enums are read as the variant they were written for.",
  "every program of declarations, every type and every value of it that serde writes, every JSON document, every notation of doubles",
  "values, documents and declarations are unbounded and recursive; rounding depends on each number",
  ["core/src/build_ins.rs","derive/src/impl_struct.rs","derive/src/impl_enum/mod.rs","src/rpc/clients/static/websocket_client.ts:request","src/rpc/clients/static/websocket_client.ts:onmessage"])
p("C71","Arguments mean on the server what they mean in the client",
  "Two different values (up to undefined) that the generated validation accepts as an argument of a type are not received by the server as the same value of the type: no argument is silently turned into another on its way.",
  "every program of declarations, every type, every pair of JavaScript values that the schema of the type accepts",
  "values and types are unbounded and recursive; JSON.stringify drops or merges some values without an error",
  ["core/src/build_ins.rs","derive/src/impl_struct.rs","derive/src/impl_enum/mod.rs","src/rpc/clients/static/websocket_client.ts:request","src/rpc/servers/axum.rs:websocket"])
p("C72","A client that does not read cannot make the server hoard",
  "There is a bound on the number of unread responses and unprocessed requests that the server holds for one client.",
  "every service, every history of requests, schedules and disconnections",
  "queues grow over histories of any length; no finite test shows a bound, or that there is none for every service",
  ["src/rpc/servers/proxy.rs:BackendProxy","src/rpc/servers/axum.rs:websocket","derive/src/rpc/impl_rpc.rs","core/src/rpc/server.rs:SubscriberMap"])
p("C73","Calls take effect one after the other, in an order that respects time",
  "If the promise of a request has resolved, or the callback of a stream has been called, before another call is made by any client, then the server executes the first call before the second, and the second sees its effects: the values both resolve with are those of one sequential execution.",
  "every service, every number of clients, every history of calls, schedules, failures and panics",
  "concurrent histories are unbounded; no test covers every interleaving of clients, network and server",
  ["src/rpc/servers/proxy.rs:BackendProxy","src/rpc/servers/axum.rs:websocket","src/rpc/clients/static/websocket_client.ts:request"])
p("C74","The calls of one client are executed in the order in which it made them",
  "The calls of one client that the server executes, in the order of execution, are a subsequence of the calls in the order in which the client made them.",
  "every service, every history of calls, frames, schedules and socket events",
  "whether a later call can overtake an earlier one depends on when sockets are closed and opened, and on the order in which the server reads its connections",
  ["src/rpc/clients/static/websocket_client.ts:open_and_send","src/rpc/clients/static/websocket_client.ts:subscribe","src/rpc/servers/axum.rs:websocket"])
p("C75","Checked projects can be relied on as a whole",
  "There is a terminating check on the declarations and function signatures of a project such that, if it succeeds, everything a user relies on holds of the generated file together: the whole file is read as client code followed by namespaces without clashes or unresolved names; every type has a schema and a type that accept what the server writes; what a schema accepts is of the type and can be read by the server; validation ends; results and stream items received are of the declared types; calls that pass validation execute the method and resolve with its result, and on a network that loses nothing and delivers everything some time they do so eventually, as do the items of streams. The example project of the repository passes the check.",
  "every project (any declarations and functions) that passes the check, every backend for it, every value, every history of the system",
  "projects, values and histories are unbounded; the parts of the guarantee come from different layers and their conditions must fit together",
  ["examples/axum/api.rs","core/src/rpc/server.rs:generate","derive/src/impl_struct.rs","derive/src/impl_enum/mod.rs","derive/src/rpc/impl_rpc.rs","src/rpc/clients/static/websocket_client.ts"])
p("C76","Wrappers make no difference to what schemas accept",
  "Box, Arc, Rc, Cow, Cell, RefCell, Mutex, Weak and PhantomData anywhere in a program (in fields, variants, conversions, arguments, at any depth) change neither which values the generated schemas accept, nor what parsing returns, nor which values are rejected, although the texts of the schemas differ (a wrapped derived type is written out where the bare type is referred to). Without the wrappers, every function returns that returns with them.",
  "every program with usable names, every type, every JavaScript value, both modules loading",
  "the texts differ, also recursively through the references, and there is no bound on programs, types and values",
  ["core/src/build_ins.rs:impl_wrapper","core/src/lib.rs:inline_schema","derive/src/impl_struct.rs","derive/src/impl_enum/mod.rs"])
p("C77","Validating a validated value again changes nothing",
  "What parsing a value with the generated schema of a type returns is accepted by the same schema again, and returned unchanged.",
  "every program with usable names, every type, every JavaScript value",
  "whether a second validation takes the same alternatives as the first depends on all pairs of alternatives and all values, at any depth",
  ["core/src/build_ins.rs:Result","derive/src/impl_struct.rs","derive/src/impl_enum/mod.rs","derive/src/impl_enum/variant/*.rs"])
p("C78","New fields with a default make no difference to values without them",
  "Let fields with #[serde(default)] be added to structs and struct variants of a program. Every type then accepts the same values as before, returns the same for each of them and rejects the same, as long as no object in the value has a property with the name of a new field; and the server reads the same documents.",
  "every program and every way of adding such fields, every type, every value without these properties",
  "old clients and stored documents can contain any value of any type, nested to any depth and in any alternative of an enum; a test compares two versions on a few of them",
  ["derive/src/impl_struct.rs:expand_schema","derive/src/impl_enum/variant/struct_variant.rs","derive/src/impl_enum/mod.rs","core/src/build_ins.rs"])

p("C79","What was valid stays valid when a program grows",
  "Let new variants be added to enums, fields with #[serde(default)] to structs and struct variants, and new types, at any places. Every value that a type's schema accepted is not rejected by its new schema, and is accepted if validating ends, as long as no object in the value has a property with the name of a new field; and the server goes on to read the documents it read.",
  "every program and every way of adding variants, fields with defaults and types, every type, every accepted value without properties of the new names",
  "the new variant can come before, between or after the old ones in enums of all representations, which may be nested in each other and in collections to any depth, and another alternative may now match first; a test tries a few values on two versions of one type",
  ["derive/src/impl_enum/mod.rs:expand_schema","derive/src/impl_enum/variant","derive/src/impl_struct.rs:expand_schema","core/src/build_ins.rs"])

p("C80","New functions and namespaces change nothing for calls of the old ones",
  "Let functions be added to the namespaces of a backend, and namespaces to the backend, at any places. In every run of the server in which clients call functions the old backend has, by name, the two servers cannot be told apart: the same steps are possible, every client gets the same responses in the same order, the same streams are running, and the namespaces both have are in the same states. So also for the clients generated from the old backend: in every run of a project they observe the same on the old and on the new server.",
  "every backend, every backend with more functions and namespaces, every state of the namespaces, every schedule of connections, frames, cancellations, panics and broken sockets whose calls name functions of the old backend, with any arguments",
  "every function, argument list and interleaving of connections and streams is different; a test calls some functions of two versions of one backend",
  ["derive/src/rpc/backend_impl.rs:expand_backend_impl","derive/src/rpc/impl_rpc.rs:expand","core/src/rpc/server.rs","src/rpc/servers/proxy.rs","src/rpc/servers/axum.rs"])

p("C81","What is valid with new fields is valid without them",
  "Let fields be added to structs and struct variants, required ones or with defaults, and new types, at any places. Every value that a type's new schema accepts was accepted by the schema it had before (with which an older client validates), and what the old schema rejects the new one does not accept. The server without the new fields reads the documents the one with them reads, if the declarations that changed neither have deny_unknown_fields nor flattened fields.",
  "every program and every way of adding fields and types, every type, every accepted value, every document",
  "the new fields can be of any type and in any place, in structs and enums of all representations nested in each other and in collections to any depth; a test tries a few values on two versions of one type",
  ["derive/src/impl_struct.rs:expand_schema","derive/src/impl_enum/mod.rs:expand_schema","core/src/build_ins.rs"])
p("C82","TypeScript types when a program grows",
  "Let fields, required ones or with defaults, and types be added to a program: every value of a type's new TypeScript type is a value of the TypeScript type it had before, so code written for the old types can use what it gets. Let fields with defaults, variants and types be added: every value of the old TypeScript type, in which no object has a property of a new field's name, is a value of the new one, so code written for the old types still passes what the new types ask for. Both hold with properties that may be missing read strictly or leniently.",
  "every program and every way of adding fields, variants and types, every type, every value",
  "the new fields can be of any type and in any place, in structs and enums of all representations nested in each other, flattened and in collections to any depth, and the types are recursive; a test compares a few values of two versions of one type",
  ["derive/src/impl_struct.rs:expand_type_defs","derive/src/impl_enum/mod.rs:expand_type_defs","core/src/build_ins.rs"])

p("C83","Wrappers make no difference to TypeScript types",
  "Box, Arc, Rc, Cow, Cell, RefCell, Mutex, Weak and PhantomData anywhere in a program (in fields, variants, conversions, at any depth) change the texts of the generated TypeScript types, but not their values: a value has the type generated with the wrappers exactly if it has the type generated without them, also where one is written out and the other is a reference.",
  "every program with usable names, every type, every JavaScript value, missing properties read strictly or leniently",
  "the texts differ, also recursively through the references, and operators group differently in them; there is no bound on programs, types and values",
  ["core/src/build_ins.rs:impl_wrapper","core/src/lib.rs:inline","derive/src/impl_struct.rs:expand_type_defs","derive/src/impl_enum/mod.rs:expand_type_defs"])

p("C84","The derive macro refuses only what it cannot support, and says why",
  "derive(Zod) on a struct or enum that serde can read succeeds, except for the documented limits (structs without fields, enums without variants, tuple structs in which a field with a default comes before one without), and then the error says which limit it is.",
  "every declaration: any number, order and style of fields and variants, with any serde attributes",
  "skipped fields and variants, conversions, transparency, defaults and flattening combine in any order and number; the ui tests of the repository show four rejected declarations",
  ["derive/src/impl_struct.rs:expand_schema","derive/src/impl_enum/mod.rs:abort_empty","derive/src/impl_enum/variant/struct_variant.rs:expand_schema","derive/src/args.rs:Input","derive/src/docs.rs:from_attrs","tests/ui/zod/fail"])

p("C85","The order in which fields are written does not matter",
  "If the named fields of structs and of enum variants are written in another order, then the derive macro accepts both programs or neither, generation returns for both or for neither, evaluating the generated schema of a type throws for both programs or for neither, and if for neither, the two schemas accept the same values with results that are the same up to the order of properties, and reject the same values; the server reads the same documents. If flattened fields keep their relative order, the TypeScript types have the same values, too.",
  "every program, every reordering of the named fields of its structs and variants (nested and recursive declarations included), every type and every JavaScript value or JSON document",
  "every permutation of every field list at once, through references between declarations, discriminated unions, flattened and skipped fields; tests have one order",
  ["derive/src/impl_struct.rs:expand_schema","derive/src/impl_enum/mod.rs:expand_schema","derive/src/impl_enum/variant/struct_variant.rs:expand_schema"])

p("C86","The order in which variants are written does not decide what is accepted",
"Let the variants of an enum be written in another order (and named fields as well, if one likes). Then the derive macro accepts both enums or neither. Generating the text of a schema or of a TypeScript type returns for both programs or for neither, and evaluating the schema throws for both or for neither. No value is accepted by the schema of one order and rejected by that of the other. If only internally and adjacently tagged enums are changed, the results are also the same up to the order of properties and validation ends for both or for neither. (For externally tagged and untagged enums the first variant that accepts decides the result, so that the result does depend on the order.) If the variants of each enum have different names, serde accepts the same documents, where named fields are read from objects. If no struct has flattened fields, the TypeScript types have the same values.",
"all pairs of programs of which one comes from the other by permuting variants of enums or named fields of structs and variants, all types, values and documents",
"A z.union tries its options in order and a z.discriminatedUnion looks its option up, at any depth, through references to other types and recursion; tests fix an order.",
["derive/src/impl_enum/mod.rs:expand_schema","derive/src/impl_enum/mod.rs:expand_typ_defs","derive/src/impl_enum/variant/mod.rs:expand_schema"])

p("C87","What a type is called does not matter",
  "If the types of a program are given other names or put into other namespaces, and all references follow, then the derive macro accepts both declarations or neither, generation returns for both programs or for neither, evaluating the generated schema of a type throws for both or for neither, and if for neither, the two schemas accept the same values with exactly the same results and reject the same values. The TypeScript types have the same values and the server reads the same documents.",
  "every program with usable names, every function from names to usable names for which both modules exist, every type and every JavaScript value or JSON document",
  "names are pasted into the generated text and resolved again at run time, through any number of references, lazily and recursively; tests use a few fixed names",
  ["derive/src/impl_struct.rs:expand","derive/src/impl_enum/mod.rs:expand","derive/src/args.rs:Input","core/src/lib.rs:Namespace"])

p("C88","Documentation changes nothing else",
  "Adding, changing or removing the doc comments of types does not change what the generated module declares: the same namespaces with the same constants, types and functions. The derive macro accepts both declarations or neither, the methods of all types return the same texts, and the server reads the same documents.",
  "every program, every other documentation of its types, all options and all namespaces of the backend",
  "documentation is pasted into the generated text; whether it can be taken for code depends on every character of it and on what surrounds it",
  ["derive/src/docs.rs:RustDocs","core/src/lib.rs:NamespaceMemberDefinition","core/src/rpc/server.rs:generate"])

p("C89","The order of registration does not matter",
  "Two builds of the same program register the same types and functions. Their generated modules have the same namespaces in the same order, and each namespace has the same declarations: the same constants with the same schemas, the same types and the same client functions. Only the order of declarations inside a namespace can differ.",
  "every program whose names and documentation can be written into JavaScript, every order in which the linker lets inventory collect what is registered, all options and all namespaces of the backend",
  "the order is chosen by the linker and differs between platforms and builds; a test sees one order",
  ["core/src/lib.rs:NamespaceMemberDefinition","core/src/rpc/server.rs:generate_with_options","derive/src/impl_inventory.rs:expand"])

p("C90","A type and the type it stands for are interchangeable",
  "A newtype struct, a transparent struct around one field, and a type declared with `from` or `try_from` can be replaced by the type they stand for: the schemas accept the same values with the same results and reject the same values, the TypeScript types have the same values, and serde reads and writes the same documents (with `try_from` the conversion may still fail). Likewise the schema and type used where a type is referred to are equivalent to those of the type itself.",
  "all programs, all declarations that stand for another type, through references, aliases and recursion, all JavaScript values, all JSON documents",
  "the schema of an alias is a lazy reference into the module, so that the two agree depends on all other declarations; a test tries some values",
  ["derive/src/impl_struct.rs:expand_schema","derive/src/impl_struct.rs:expand_type_def","derive/src/impl_enum/mod.rs:expand_schema","core/src/lib.rs:inline_schema"])

p("C91","Aliases can be used anywhere inside of a type",
  "Two types that are the same except that in some places, at any depth (inside vectors, options, sets, map values, tuples, results, wrappers), one has an alias (newtype, transparent struct, type with `from` or `try_from`) where the other has what it stands for, are interchangeable: their schemas accept the same values with the same results, their TypeScript types have the same values, and serde reads and writes the same documents.",
  "all programs, all pairs of types that are the same up to aliases, all JavaScript values, all JSON documents",
  "there are infinitely many types that contain an alias, and their schemas differ in text",
  ["core/src/build_ins.rs:schema","core/src/lib.rs:inline_schema","derive/src/impl_struct.rs:expand_schema","derive/src/impl_struct.rs:expand_type_def"])

p("C92","An alias may be replaced by what it stands for in all declarations",
  "If in all declarations of a program an alias (newtype, transparent struct, type with `from` or `try_from`) is replaced by the type it stands for, the schema of every type, written or referred to, and every exported schema accept the same values with the same results as before, and, unless the alias has `try_from` or stands for PhantomData, serde reads every document it read before. It reads no further documents either, unless a field of the replacing type may be missing where a field of the alias may not, or the replacing type is a string. If the alias is written as it is read and no `into` mentions it, serde also writes every document it wrote before, and no others unless the replacing type is an Option or a string.",
  "all programs, all aliases that do not mention themselves, all types, all JavaScript values, all JSON documents",
  "all declarations change at once, references turn into written schemas and the other way round, and the declarations may be recursive",
  ["core/src/lib.rs:inline_schema","derive/src/impl_struct.rs:expand_schema","derive/src/impl_enum/mod.rs:expand_schema","core/src/build_ins.rs:schema"])

with open('/verif/properties.jsonl','w') as f:
    for x in P: f.write(json.dumps(x)+"\n")
print(len(P))
