# Formal model of optiprism: design

Lean 4 (no own axioms). `properties.jsonl` lists the claims, `MANIFEST.json` maps each
claim to theorem names, this file says what is modelled and how each claim is proved.

## 1. Method

* Every Rust function that matters for a property is transcribed as a total computable Lean
  function in a `Model` file, with a comment citing file and lines in /repo. Panics
  (`unwrap`, index out of range, `unreachable!`, integer underflow in debug) are an explicit
  error value, never a default.
* Each property is stated in a separate `Props` file against a small independent spec
  (what the user sees), not against the helpers of the model.
* Four proof shapes: round trip; invariant by induction over a list of operations; refinement
  to an abstract spec; decision logic outright.
* Where the code violates the claim: a `..._violated` theorem exhibits a concrete run on the model
  which breaks the full statement, and a `..._partial` theorem proves the claim under the weakest
  extra hypothesis found. The disagreement is recorded in section 4.
* Beside each theorem an `example` instantiates the hypotheses with a non-trivial case.

## 2. Plan per property

| id | model | how |
|----|-------|-----|
| C01 | byte level framing (crc LE u32, len LE u64, payload), replay loop, abstract checksum, payload codec modelled concretely for the row type | round trip by induction on rows |
| C02 | same | invariant of replay over arbitrary bytes |
| C03 | same, byte prefix of a file | violated by the code (`read` returns short, checksum differs, open fails); witness + partial (crash at a frame boundary, or empty tail) |
| C04 | codec of the manifest: casts modelled (`as u32`, `as u64`, `as i64`) | round trip; check which fields survive |
| C05 | memtable as columns | refinement to list of rows |
| C06, C07 | `insert` as a function on (schema, memtable, log) | decision logic + column/row refinement |
| C08 | add_field on schema/memtable/parts | refinement to rows padded with NULL |
| C09 | log records + replay after add_field | violated (positional replay leaves ragged columns); witness + partial |
| C10, C11 | chunk streams, heap with arbitrary tie break, check_intersection, reorder vector with per-stream cursors | permutation + sortedness by induction |
| C12, C13 | memtable dedup, replacing merge | C13 proved, C12 violated with witness + partial (single block) |
| C14, C15, C16 | disk = manifest + logs + parts; flush as a list of file operations; crash = prefix of that list | refinement to multiset of rows; C15 violated at named crash points, proved at the others |
| C17, C18 | determine_compaction + compact on abstract parts | permutation of rows under no-duplicate selection; witness for the duplicate selection |
| C19, C20 | Fs reference counts, gc pass | decision logic + counter invariant |
| C21 | get over memtable and levels | partial: disjoint parts |
| C22 | cas cache | decision logic |
| C23 | small-step interleaving of insert/flush/scan sections | violated; witness schedules + partial |
| C24 | byte stream of backup | round trip |
| C25, C26 | KV store + sequence; small-step transactions | sequential invariant; concurrent witness |
| C27 | generic indexed collection on top of KV | invariant over operation lists |
| C28 | key strings | injectivity of the key functions |
| C29, C30, C31 | dictionaries / groups on KV | invariant |
| C32, C33 | custom events store | acyclicity invariant; depth violated |
| C34 | organisations + accounts | invariant, violated by deletes |
| C35 | projects | violated by name/token namespace sharing; partial |
| C36 | sessions | refinement to last-hit map |
| C37..C41 | codecs and small state machines | round trips, witnesses |
| C42, C43 | context checks and role tables | decision logic; C43 violated |
| C44..C48 | ingester conversions | decision logic, witnesses |
| C49, C50 | filter expressions with three-valued logic; time ranges | decision logic |
| C51..C54 | aggregate evaluators over batches | refinement to fold over concatenated rows |
| C55..C59 | funnel evaluator | invariants over row sequences, witnesses |
| C60, C61 | behavioural segmentation | refinement, witnesses |
| C62..C65 | unpivot, pivot, limit, merge operators | refinement |
| C66 | calendar truncation | arithmetic; month/year buckets violated for stepping |
| C67 | names of log files, order of the directory listing | decision logic + crash state of C15 |
| C68 | scan as a life cycle over the Fs counters | invariant, witness for dropped and failed scans |
| C69, C70 | listing by prefix; small-step creates | invariant over requests; concurrent witness |
| C71 | table of all endpoints | decision logic over the table |
| C72..C79 | ingestion as a history of requests over metadata and table | invariants over request lists, witnesses |
| C80, C81 | event expressions, dictionary filters | decision logic; 16-bit cut and unknown strings violated |
| C82..C86 | per-user property aggregates, segments of queries, funnel counters | refinement to rows per user, witnesses |
| C87, C88 | pivot after unpivot, simultaneous rename | refinement |
| C89, C90 | group names and group values over metadata histories | invariant over requests |
| C92, C93 | attached properties, bookmarks over metadata histories | codec argument, refinement to a shelf |
| C108 | update calls of nine record kinds over metadata histories | field-by-field decision logic through the codecs; three fields violated |
| C109 | resolution and conversion of the properties of a track request over metadata histories | refinement: stored cell reads as the value sent, through column names and dictionaries; one case violated |
| C110 | numbers drawn for events and for versions of group rows, over all sequences of ingestion and metadata requests | invariant: stored numbers rise and stay at or below the counter; counter only grows |
| C111 | identify requests over metadata histories: group values merged, stored in the row of the group | refinement: cells are the current values of the group, those sent read as sent; strings of other kinds of groups violated |
| C112 | groups of a track request: number and current values in the event's row | refinement, columns of events, groups and system kept apart; user's values missing without groups |
| C113 | ranges of the parts of a level, histories of inserts, flushes and compactions | invariant: apart in pairs from level 1 on; touching ends and single-key parts violated |
| C114 | account calls of the platform, their answer and the store they leave | what is acknowledged is stored and log-in follows; role and duty flag of administrators' updates violated |
| C115 | the user-agent and geo transformers of track requests, over metadata histories | refinement: what is detected is in the row of the event and nothing else; a deleted property refuses requests |
| C116 | track requests to rows (C47, C76, C108) and rows to the values of a chart (C49, C51, C53, C66) | composition: the numbers shown are the numbers of accepted requests |
| C117 | row filters of the planners: segmentation, funnel, records, property values | decision logic over all rows; refuted for funnels and segments |
| C118 | the same | refinement: the rows kept are the rows asked for, per kind of query |
| C119 | `aggregate_and_sort_columns` and the limit behind it | refinement: the rows ranked by the mean of their values |
| C120 | track requests to rows with the number of the user (C30, C78, C116), the per-user aggregate (C54), its combination (C53) | composition: the numbers shown are the numbers of distinct users |
| C121 | `Projects::create` and `init_project` (Setup.lean) over any reachable world (`Life`) | invariant by induction over worlds (properties ruled, columns present, counters readable, fresh projects empty), then exact contents step by step |
| C122 | the executors over any reachable world | the same invariant; every call of the executors succeeds in it, every cell fits its column |
| C123 | the conversions of report queries between the JSON types and the stored types, both ways, and the report endpoints over metadata histories | exact condition for the round trip (`Tidy`), induction over the types, then over histories; drift and losses with witnesses |
| C124 | the caches of properties by identifier and name, filled before the transaction commits, with arbitrary eviction | invariant: cached records are the stored ones up to what the store does not keep, by induction over requests and evictions |
| C125 | the handler of event segmentations: validation, conversion, times for numbers, projection, expressions and plan | `Served` holds in every reachable state; decision logic with panics as values |
| C126 | columns of a chart: `projection`, `scan`, groups and aggregates of its plans | decision logic; membership both ways |
| C127 | row filter of a chart against the filters as sent, with values decoded and encoded by dictionaries | refinement: `Selects` of the plan ↔ `Asked` of the stored row |
| C128 | `DictionaryDecodeExec` below the filters | decision logic with panics as values |
| C129 | handler of funnels: `validate_request`, conversions, `FunnelProvider::build` | decision logic with panics as values |
| C130 | row filter, steps and exclusions of a funnel against the request as sent | refinement, as for C127 |
| C131 | columns, groups, constants, window and names of a funnel | decision logic; membership both ways |
| C132 | `validate_event_filter_property`, `validate_request` of charts and funnels | decision logic, as an equivalence |
| C133 | `search` of event_records.rs from the request to the columns of the answer | refinement: the plan run on any table gives the rows and columns asked for |
| C134 | `projection`, `build_search_plan` of event_records.rs | columns of the plan against columns read |
| C135 | `search` of group_records.rs from the request to the columns of the answer | refinement, as C133 |
| C136 | `get_by_id` of event_records.rs and group_records.rs | refinement: the answer is the record of the row; what is shown of missing values |
| C137 | `values` of properties.rs from the request to the values | refinement: the plan run on any table gives the distinct values in order |
| C138 | the JSON of values | every slot against what it should show; rounding characterised as nearest, ties to even |
| C139 | the answer to a funnel from the workers' counts | positions in the flattened columns by induction on the steps; refinement |
| C140 | the answer to a chart from the table of aggregates | composition of C62-C64, C87, C88, C119 and C138; refinement to lines and columns |
| C141 | the answer to a chart of counts from the requests of sources | composition of C116 and C140 |
| C142 | the answer to a chart of users from the requests of sources | composition of C120 and C140; violated as C120 is |
| C143 | the answer to a chart of several events | refinement to the lines of the events one after the other under the columns of all, with C140 and C65; violated for breakdowns that may not be NULL |
| C144 | the bodies of track and identify requests | round trip: the reader of bodies against a relation saying what a document states, composed with C122; violated for strings that read as dates |
| C145 | the schema API: events, custom events, dashboards, groups, properties | round trip through conversion, store and any further requests that do not change the record, composed with C28, C69, C89 and C108; violated for numbers in filters of custom events, attached properties and a route |
| C146 | secrets in answers of the API | noninterference: a relation between stores that differ in password hashes, backup passwords and keys of the settings only, kept by every metadata request and every call, whose answers are the same; induction over conversations |
| C147 | administration calls: accounts, organizations, projects, backups, bookmarks | what is asked and what is shown compared field by field, over every later history that leaves the record alone; lists both ways; decision logic for permissions |
| C148 | the loop that runs and schedules backups, the files it leaves, the start of the server | decision logic for a turn (made if and only if), a specification of the schedule by calendar dates, invariants over all sequences of turns |
| C149 | starting the server: keys, administrator, first organization, interrupted starts | a specification of a server one can log in to, induction over any number of starts interrupted anywhere, decision of when a start succeeds |
| C150 | routes: which handler a request reaches, with which arguments, and when it needs a token | a list of addresses as specification, agreement with the table of 209 routes by evaluation in the kernel, and general lemmas on patterns for all paths |
| C151 | whole requests: the status and content of replies and their effect on the metadata | composition of the models of routes, callers, calls and the store; every request shown to act as at most seven requests of the metadata model, then induction over any conversation |
| C152 | projects are apart: what strangers to a project learn of it and change in it | noninterference: two runs on stores that agree outside the project, by cases over every call of the metadata and the API, then induction over conversations |
| C153 | requests to the ingester, and the making of projects, are apart from other projects | noninterference: two runs that agree outside a project, through every step of track and identify, then induction over requests |
| C154 | the values of stored queries are read as they were written | round trip, by cases over the kinds of values |
| C155 | segments by an aggregate of a property hold the users whose numbers compare | invariant of the loop over the sorted rows, any batches |
| C156 | starting the storage: which tables are made, with which options, and what starts keep | the changes of the file system as a list that may end anywhere; invariants over any sequence of starts and work |
| C157 | answers in the compact format: charts of one event and searches | refinement to the rows of the table with their means; the columns of the other format; panics for counts and breakdowns |
| C158 | the types of columns in the store, in arrow2 and in arrow | the two ways to a type agree; round trip by induction over nested types; exact set of panics; lists violated |
| C159 | the users of the demo store | exact number and moments of users for all draws, by induction; last user and late users violated |
| C160 | queries read nothing of other projects | noninterference: all planners and answers on two stores that agree in the project, then on two tables that agree in it; pattern filters and funnels violated |
| C161 | the events of a demo user | invariant of the loop over actions, by induction over turns and sessions: no panic, a possible story event by event; repeated events and late sessions violated |
| C162 | the products of the demo store | when it comes up, decided outright; products a permutation of the file; events keep to the products, by induction over turns and sessions; deals and wanted products violated |
| C163 | the people of the demo store | shares of the draws counted by induction over the weights; people made of rows of the files, and every row with a weight reached; an empty file of companies violated |
| C164 | the filter of a funnel | equality of the funnel with any two filters unless users are counted once, by induction over rows and batches; what it decides otherwise, outright; violated |
| C165 | the rows that end sessions | induction over the sessions, one row for each that is over; the time, the length and a crash violated by runs of the model |
| C94 | parquet merger: chunk queue, row heaps, reorder vectors, per-column page readers, output files | invariant over rounds, refinement to rows |
| C95 | same with `is_replacing` | violated with witnesses, partial (distinct first columns) |
| C96, C97 | compactor, flush, insert, scan and gc as interleaved steps | invariant over all interleavings, violated with witnesses |
| C98–C102, C104, C105 | accounts, tokens and what people hold, as steps over the metadata model | provenance and other invariants over all histories; C101, C102, C105 violated |
| C103, C106, C107 | settings endpoint, keys made at start-up | decision logic, non-interference, invariant over histories; C103, C107 violated |
| C91 | crash points of a compaction round | invariant over the round, exact condition, witness |

## 3. Trusted base

**Kernel and axioms.** Everything is checked by the Lean 4.33.0 kernel. No axiom is declared, there
is no `sorry`, `admit`, `native_decide`, `bv_decide`. Every theorem named in `MANIFEST.json`
depends on a subset of `propext`, `Classical.choice`, `Quot.sound` (`#print axioms`).
`decide +kernel` is used for concrete witnesses only and adds no axiom.

**The transcription is trusted.** The code was read, not run. Each model definition cites its lines.

**Storage crate (`Verif/Storage`).**
Modelled: the write-ahead log (frame, replay), the memtable, insert / add_field / flush / scan / get /
replace, the manifest codec, recovery, the two- and one-key merge of the scan, the replacing merge,
determine_compaction and compact, the merge of part files (index and data columns, readers, files), file reference counts and the gc pass, backup and restore of the
table directory, interleavings of the lock-protected sections of insert, flush and scan, also with the
compactor's file operations and passes of the garbage collector.
Assumed or left abstract:
* crc32 is any function to 32 bits (a concrete one is used in witnesses only);
* the bincode layout is modelled from its documentation (`Bytes.lean`); in `Backup.lean` the codec of
  the table list is a parameter which round-trips;
* parquet and arrow files are lists of rows with a key range: that the arrow writer/reader
  round-trips cell values is assumed. In `Compact.lean` the parquet merger is a parameter specified by
  `IsMerge` (a sorted permutation of its inputs, with the range of its keys); `C94_isMerge` proves
  that the modelled merger meets it for tables which do not replace. There index columns are
  integers, pages are lists of values, list columns and the sizes of files are left out;
* `lexsort` is not stable: any sorted permutation; `BinaryHeap` may break ties in any way;
* a crash keeps a prefix of the file operations of a flush, and of the bytes of the operation it
  interrupts; there is no reordering by the file system;
* C23: each lock-protected section is atomic; allocation failure, I/O errors other than the crash are
  not modelled;
* C96, C97: the compactor's computation is one step, taken when it copies the metadata, its file
  operations and the installation of the result are single steps; a pass of the garbage collector is
  atomic; a scan takes the memtable together with the metadata; a computation that fails ends the history.

**Metadata crate (`Verif/Meta`).**
Modelled: key construction, the record store over the key-value store, every module's requests as
functions on the store, the protobuf records (`Proto.lean`, `Wire.lean`, `Records*.lean`), sessions,
backups, property columns; small-step interleavings of creates (`Conc.lean`).
Assumed or left abstract:
* RocksDB is a finite map; a transaction is atomic; `get` in a transaction takes no lock, `put` and
  `delete` lock their key until commit; prefix iteration returns exactly the keys with the prefix, in
  an order which is left open;
* prost's wire format is modelled from its documentation; the outer length prefix of embedded
  messages is modelled as a varint below 2^64; strings as lists of characters;
* bincode inside metadata records (`Env.bc`) is a parameter which round-trips;
* the snake-case function for column names is a parameter (`Env.sys`); the outcome of
  `add_field` is a parameter;
* the property caches are modelled apart (`PropCache.lean`): C124 shows that, but for refused creations and what the store does not
  keep, they do not change any answer, so the other claims speak about the store alone;
* histories have fewer than 2^62 requests, so that no 64-bit counter wraps;
* `Req.Ok` says that table and dictionary names have no slash (they are constants in the code);
* the session cleaner's callback and clock are parameters, the backup job is decision logic over the
  outcomes of its steps.

**Platform crate (`Verif/Platform`).** The context checks, the role tables and one table of all
endpoints with the permission each one asks for; sign-up, log-in, refresh, changes of one's own
account, switching of organizations, account administration, settings and the keys made at start-up.
Assumed or left abstract:
* cryptography is symbolic: a token is the record of its claims and its key, it verifies under exactly that
  key, people present only tokens they were given (nobody guesses a key or overhears a token);
* hashing, verifying, the checks of addresses and password strength are parameters; only `C99_login` assumes
  something of them, namely that a hash verifies for its own password only;
* signing keys come from the stored settings at every call; cookies and HTTP parsing are not modelled;
* requests for charts and reports begin after serde has read them: the types `J…` are those of the platform crate, `C…` those of
  the common crate, and every `From`/`TryInto` between them is a function (`Request.lean`). A panic in a conversion is `none`.
  serde's number type is a parameter with the two conversions the code makes of it; bincode for stored queries is any pair of
  inverse functions, as for the other stored records (`RequestDemo.lean` shows that there is one);
* the handler of charts (`Chart.lean`) covers validation, conversion and the plan of event segmentations without segments (a request with
  segments is refused); access checks, the parameters `timestamp` and `format`, and names that are only shown are left out. In its row filters
  decimals are cells of 28 digits after the point, so the cells of number columns are read on that scale, which is what DataFusion's coercion
  of integers and decimals to a common type amounts to;
* the handler of funnels (`FunnelPlan.lean`) covers validation, conversion and the plan, with the names of the steps; whether overflow checks are
  on is a parameter. `FunnelNode` shows DataFusion no expressions, so its analyzer coerces nothing in steps and exclusions; what comparing cells of
  different types then does is left to `eval`, which selects nothing (DataFusion may fail instead). The evaluator of funnels is part of the query crate;
* searches for events and groups (`Records.lean`) cover validation, conversion, the plan and the columns of the answer. DataFusion's
  `Filter`, `Sort`, `Limit` and `Projection` do what they are called after; that a plan over columns which were not read is refused later
  is not part of the model, C134 says when the columns suffice. How the cells are written as JSON is left out;
* look-ups of one event or group (`Single.lean`) and the values of a property (`Values.lean`) cover the same parts; the order in which the
  values are sorted is a parameter, and DataFusion's `Aggregate`, `Sort` and `Limit` do what they are called after;
* how values are written (`Answer.lean`): a decimal after `round_dp` is its number of thousandths, that the `f64` made of it has the same digits
  is assumed; the conversion of ratios from `f64` to decimals is a parameter (any function, C139_ratio asks for accuracy), the drop-off ratio is
  100 less the other one exactly; printing of values and what arrow leaves in the NULL slots of decimal arrays are parameters;
* the answer to a chart (`ChartAnswer.lean`, of several events `ChartsAnswer.lean`): the format `Json`; which columns may be NULL is a parameter; segments are in the table, how they are found is C60 and C83;
  DataFusion's final `Aggregate` over distinct groups changes nothing; `stamp` prints a moment, and the two ways the code prints moments are
  assumed to agree. C141 and C142 take the table of the final stage as the listing of the combined results with the segment 0;
* the start of a history is any state of the metadata in which nobody holds a token.

**Ingester (`Verif/Ingest`).** track and identify of `executor`, the sinks and the property
conversions, over the metadata model and a table model (a list of rows and a list of columns).
JSON parsing is an arbitrary function. The request transformers are arbitrary functions which add at most
`K` properties, and in C115 those of the code, over any user-agent parser and address database; rust_decimal is a mantissa with a scale; a panic while a std `Mutex` is held poisons
it; the storage engine underneath is the table of C06/C07, flushes are not modelled here.
Creating a project (`Setup.lean`) takes one clock value for the whole call and the token from the request (the code draws it at random).
C121 and C122 speak of the worlds of `Life`: created from the empty store by creating projects, track requests with one of the two ids,
identify requests without dates, and metadata requests which are `Benign` (they do not delete or retype properties, delete or rename
events, or make properties outside of the rules of the platform); `T` says which strings are tokens, no project's name is one.
The bodies of track and identify requests (`Body.lean`) are documents given by a parameter `Codec` (`serde_json`'s grammar, dates, numbers, addresses,
the order of hash maps); reading a structure from a document follows serde's derive: members at most once, unknown ones ignored, `null` for
absent options, arrays by position.
The tables' columns are added when a property is made, as `create_property` does; sessions, the clean-up of rows and the storage underneath are left out.

**Query crate (`Verif/Query`).** Modelled: filter and event expressions built by the planner and their
three-valued evaluation, time ranges and bucket columns, the segmented event aggregates (count, sum, min,
max, avg), the per-user aggregates, behavioural segments and their combination, the funnel evaluator
(every option) with its counters and final combination, the result-table operators (unpivot, pivot, limit
groups, merge, rename columns), and the row filters which the planners of segmentation, funnels, event and group
records and property values build (`Plan`; which columns they project and decode is not part of these).
Assumed or left abstract:
* DataFusion evaluates the planner's expressions by SQL three-valued logic; its own operators
  (projection, filter, sort, repartition) are not modelled beyond "rows of one user arrive together,
  in time order", which is a stated hypothesis where used;
* chrono and chronoutil follow their documentation (`DateRule` excludes its end); the calendar is the
  proleptic Gregorian one without limits and leap seconds;
* numbers in accumulators are rationals (no overflow, no rounding); a NULL slot of a primitive array is
  read as 0, which is what arrow's builders leave there;
* in C116 DataFusion's `date_trunc` truncates as `dateTrunc` does, a row is read as it was stored (C06 to C15 are about the
  storage), and the workers' results are listed in any order;
* in C120 it is a hypothesis that the rows of a user reach one worker one after the other (`UsersApart`); `C120_sorted_partial` derives
  it for one worker reading the table in the order of its key. Whether DataFusion repartitions the rows (`target_partitions` is left at its
  default, query/src/lib.rs) cannot be seen in this source;
* in C119 the slot of a missing value holds 0 and `sort_to_indices` gives any descending order; the sum of a row does not overflow;
* what a cell means (its number, time, user, string) is a parameter `Sem`;
* column names are taken as given (their formatting is not modelled); the join of the aggregates' columns
  at the end of a segmented query is not modelled;
* funnels: a step number outside the list is a mismatch; step times do not overflow;
* the property-aggregate predicate of segments is modelled apart from the plans (C155); the hash partitioning is not modelled; decoding of dictionary columns is
  modelled below the filters of charts (`Platform/Decode.lean`) and in searches (`Platform/Records.lean`), not where the results of charts are decoded for display;
* table operators: cells without arrow types and casts; the pivot's row hash is a parameter;
* schema API (C145): the JSON of requests and answers is taken as read and written field by field; `Number` and its conversions are the
  parameters of `ReqEnv`;
* secrets (C146): the calls are those of `Platform/Auth.lean`, `SchemaApi.lean`, `ReportApi.lean`, `AdminApi.lean` and `SettingsApi.lean`, with the
  checks of tokens and permissions in front; the answers are compared, not the time they take. Tokens are symbolic and have the key they
  were signed with in them, so the two signing keys of the settings are not among the secrets. Of the keys and the encryption password of
  the settings it may be told whether they are empty (`Settings::validate` does so). Where a password is compared (log in, change of email
  address or password) the answer tells whether it is right, and the hypothesis is that it is right for both stores or for neither.
* administration (C147): `Platform/AdminApi.lean` has the calls of accounts.rs, organizations.rs, projects.rs (but creation, which is in
  `Ingest/Setup.lean`), backups.rs and bookmarks.rs with their conversions; salts, the random names of bookmarks and the clock are parameters. The name
  of the file of a backup is kept as its provider and the hour; the calendar is not spelled out. `Meta/StaysTop.lean` has what leaves an
  account, an organization or a backup alone.
* backups (C148): `Platform/Scheduler.lean` has the loop of cmd/src/backup.rs 39-241 turn by turn, the files of 278-320 as a map from places to the
  backup that wrote them, and `init`. Nothing happens to the store within a turn; the outcome of archiving and delivery is given from outside; the crate
  `croner` is trusted for the five patterns used; the temporary files, the contents of the archives and the sleeping between turns are left out.
* starting (C149): `Platform/Start.lean` has the part of cmd/src/command/server.rs 35-102 that reads and writes metadata, with `init_settings` and
  `backup::init`, as the list of the stores after each transaction, so that a start may be interrupted between any two. Keys, password, salt and clock are
  given from outside. The creation of directories and of the tables, the metrics, the threads and the routes are left out.

* routes (C150): `Platform/Routes.lean` has every `attach_routes` of platform/src/http/*.rs and of the ingester in the order of the code, the `Path`
  extractors of all 76 handlers and which of them take a `Context`. axum and matchit, whose sources are not here, are trusted for what nesting means, for
  the choice among matching patterns (at the first difference a word goes before a parameter), for a parameter not matching an empty piece, and for
  decoding, then counting, then reading the parameters. The CORS layer, cookies, queries and bodies are left out.
* whole requests (C151): `Platform/Serve.lean` joins the routes, `Context::from_request_parts`, the calls of C97-C105, C123 and C144-C147, and
  `into_api_error`. Bodies come decoded (`ReqBody`; one of the wrong kind is refused with 400), replies as a status and the value that is written as
  JSON, without headers and without the message of a refusal. Left open as functions: the status of charts, records and values (they do not write), what
  `track`, `identify` and the making of projects do, and the files of the user interface. That hyper sends no body with 204 is trusted.
* projects apart (C152): no new model of code. `Meta/Apart.lean` has the keys of a project (`inProject`: those that begin as `project_ns` makes them), the
  store without and with only these (`hide`, `only`) and, for each call of the metadata, what it does on two stores that agree outside the project. The
  record of the project itself (its name, token and counters, under `projects/data`) is not among those keys. That charts, records and values of one
  project do not depend on the metadata of another is assumed there (`WebEnv.Apart`) and proved of their models in C160; `track`, `identify` and the making of projects are left out.
* projects apart in the ingester (C153): no new model of code either. `Ingest/Apart.lean` follows `executeTrack`, `executeIdentify` and `createProject` on two
  worlds that agree outside a project. The tables and their columns are shared by all projects and are taken to be the same in both worlds; rows are
  told apart by their first value, the number of the project. That transformers look at the project of the request only is proved for those there are
  (`C153_transformers`). The link to the requests of C152, which leave the ingester open, is not made.
* values of stored queries (C154): `Platform/Scalars.lean` has the two conversions of common/src/scalar.rs. That serde and bincode read a `ScalarValueRef` as
  it was written is trusted. The kinds of `ScalarValue` that `ScalarValueRef` has no name for are one kind here (`other`); precision and scale are natural
  numbers.
* segments by a property (C155): `Query/SegmentAgg.lean` has the loop of segmentation/aggregate.rs for the two kinds of columns the planner has (`Int64`,
  `Decimal128`). Sums are integers without bound; the slot of a NULL holds one number for all rows; what the filter says of a row is given.
* starting the storage (C156): `Storage/Start.lean` has `recover`, `create_table` and `init_storage` on directories of tables. Log and parts of a table are
  one value (their contents are the matter of C01-C24); a manifest is missing, unwritten or written, so a torn one counts as unwritten; the table options of the
  configuration file are numbers and its text is not read. Work between starts changes the data of tables that can be recovered only.
* compact answers (C157): `Platform/CompactAnswer.lean` has the plan of a chart of one event in the format `JsonCompact` from the table of aggregates on, with the
  operators of C64 and C119, and the two ways in which columns become JSON. The types of aggregates are parameters. Charts of several events in this format are not
  modelled; a table without rows is taken to give no batch.
* types of columns (C158): `Storage/ArrowTypes.lean` has `field2_to_field1` and `schema2_to_schema1` on all types of arrow2 and the four conversions of `DType`. The
  transfer of the data through the C interface (`transmute`, `from_ffi`) is not modelled, nor is the metadata of fields.
* the demo store (C159): `Ingest/Generator.lean` has `Generator::next_sample` with its draws as a parameter. How profiles and
  products are read from their files is not modelled.
* queries and other projects (C160): no new model of code; the theorems are about the planners and answers of C125-C137. Aggregates of charts and the funnel
  operator are taken to be functions of the rows that are kept.
* the events of a demo user (C161): `Ingest/Scenario.lean` has the loops of `Scenario::run`, `write_event` as far as event, time, identity, cart, spent total,
  revenue and product go, `next_action`, `make_transitions`, `make_coefficients` and `select_intention`, with all draws as parameters. Of weights only whether
  they are zero is kept; that `next_action` ends below zero in floats is taken for granted. A draw of `rand` that has no products to choose from, the other
  properties and what the ingester `write_event` is taken to succeed unless it panics.
* the products of the demo store (C162): `Ingest/Catalogue.lean` has `try_new_from_csv` after the file has been read and the three samples. The shuffle is any
  function that gives a permutation; prices are integers, so that overflow of decimals is left out; that the spline gives a weight for each product is taken
  for granted.
* the people of the demo store (C163): `Ingest/People.lean` has the two constructors after `csv` has made rows of the files, `WeightedIndex` of the crate `rand`
  (its sums, its errors and its search, which is taken to find the first sum that is higher), and the samples. A sum of weights beyond an `i32` is an error in the
  model (a panic in debug builds). Names, addresses and identifiers of people are left out.
* the rows that end sessions (C165): `Ingest/SessionEnd.lean` has the callback of the cleaner with its row, the loop over the sessions read and their deletion. The
  sleeping between runs and hits that arrive during a run are left out; a failure is a panic that ends the thread. The order in which the store lists
  sessions is that of the model's store and not RocksDB's; the theorems hold for the list as it is read.

**Not modelled at all.** The HTTP layer except C144, C150 and C151 (so headers, cookies as text, CORS, JSON as text), the UI, datafusion's optimizer and its own operators, the
test-data generators, the files of the demo store, logging and metrics.

## 4. Where the code disagrees with the claim

Each line names the theorem exhibiting the run. The claim's `_partial` theorem says what is left.

Storage
* C03: a torn last frame makes `open` fail instead of dropping the frame (`C03_violated`).
* C04: decimal and timestamp columns come back with the built-in precision/scale/unit; the version is
  cut to 32 bits (`C04_violated`, `C04_version_truncated`).
* C06: key values are taken by position of the values supplied, not by column name (`C06_violated`).
* C09: adding a column while rows are unflushed makes the replayed memtable ragged (`C09_violated`).
* C12: the replacing merge compares the first key column only; rows with equal first and different
  second key are lost, and an old version may win (`C12_violated`, `C12_old_version_may_win`).
* C15: crash after the manifest was written and before the log was removed duplicates rows; torn
  manifest or removed log cannot be opened (`C15_violated`); an orphan part file blocks later flushes
  (`C15_orphan_blocks_flush`).
* C17: above level 0 a part can be selected twice, which duplicates its rows (`C17_violated`); a moved
  level-0 part dangles (`C17_l0_move_dangles`); a pending rename panics (`C17_pending_rename_panics`).
* C19: after a crash inside a flush the log being written is not the one of the manifest and gc
  removes it (`C19_active_log_removed`).
* C20: in a release build a close without an open wraps the counter (`C20_release_underflow`).
* C21: `get` stops at the first part (and row group) whose range covers the key (`C21_violated`).
* C22: a failed `replace` forgets the cached version, so the retry succeeds; changes by another path
  are not noticed; the cache evicts (`C22_violated`, `C22_lost_update`, `C22_eviction`).
* C23: an insert overlapped by a flush is not durable; a scan overlapped by a flush misses rows
  (`C23_durable_violated`, `C23_second_window`, `C23_scan_violated`).
* C24: a failed restore has already emptied the database (`C24_failed_restore_empties`).
* C68: a scan which fails or is dropped never releases its files (`C68_violated`).
* C91: compaction writes the manifest before it renames: a crash in between leaves a recorded part
  without a file, and the next garbage collection deletes the only copy of its rows; the manifest is
  overwritten in place and may be torn (`C91_violated`, `C91_rows_lost`).
* C95: the merge of a replacing table compares the first key column only. Group tables have the key
  (project, id), so compaction keeps one group record per project and deletes the others
  (`C95_violated`). Dropped rows do not advance the data cursors, so the rows kept have the values of other
  rows (`C95_data_violated`). The intersection test compares a whole key with a shortened one, so the
  file may be out of order (`C95_order_violated`).
* C96: the compactor releases the count of a file and then calls `try_remove_file`. A pass of the garbage
  collector in between removes the file first; the compactor's `remove_file` then fails and its `unwrap`
  ends the thread. No compaction happens until a restart, and the renames left over are never done: the
  manifest records a part whose file is elsewhere (`C96_violated`), and after a restart the garbage
  collector deletes that file (`C96_lost_for_good`).
* C97: a scan copies the metadata and opens the files later, without a lock. If the compactor removes or
  renames a file in between (`C97_violated_delete`), or has installed a moved part but not yet renamed its
  file (`C97_violated_rename`), the scan fails, and the counts of the files it has opened are never
  released.

Metadata
* C26, C70: sequences and name checks read without a lock: two concurrent creates get one id or one
  name (`C26_violated`, `C26_stale_violated`, `C70_violated`).
* C27, C35: projects keep names and tokens in one index (`C27_projects_violated`, `C35_violated`,
  `C35_lost_token`).
* C121: for the same reason a new project is refused though no project has its name or its token, if its name is the token of another
  (`C121_name_violated`).
* C29: `create_key` overwrites (`C29_create_key_violated`).
* C31: `merge_with_anonymous` writes decimal digits into a binary counter, the next new visitor panics;
  a known user keeps the old number (`C31_new_visitor_violated`, `C31_known_user_violated`).
* C33: nesting depth is checked from above only (`C33_violated`).
* C34: organisations of accounts and members of organisations diverge (`C34_*_violated`).
* C92: the stored form of an event has no property lists: attached properties are never read again and
  detaching is always refused (`C92_violated`, `C92_never_listed`).
* C93: random bookmark identifiers are written without a check (`C93_violated`).
* C36: hits are kept in seconds, sessions close up to one second early (`C36_early_violated`).
* C37: the start hour is not written (`C37_start_hour_violated`).
* C38: a running backup does not stop a second one (`C38_violated`).
* C39: a failed archive is recorded as completed when the delivery works (`C39_violated`).
* C40: two live properties can share a column after a data-type update, and same-named system
  properties always do (`C40_violated`, `C40_system_violated`).
* C41: fields which the record codecs drop (`C41_*_violated`).
* C69: listing teams returns at most one (`C69_teams_violated`).

Platform
* C43: an owner or administrator of the token's organisation passes the check for any project
  (`C43_violated`).
* C99: `set_email` does not validate the address (`C99_set_email_unchecked`); `sign_up` does not read the
  repeated password; creating an account as administrator skips the check of the password;
  updating one as administrator ignores `force_update_password`.
* C101: refreshing copies the organization of the access token presented: of another account
  (`C101_refresh_violated`), or one the account has left (`C101_left_violated`). The permission which
  switching asks for is granted to owners only (`C101_member_switch_violated`).
* C102: the handler of refresh extracts the caller from a valid access token first
  (`C102_expired_violated`).
* C103: the settings endpoint ignores the GCP key, the schedule and the administrator's password
  (`C103_ignored_violated`); since GCP needs the key, it can never be chosen (`C103_gcp_violated`).
* C105: tokens carry nothing that changes with the password (`C105_session_violated`).
* C107: the settings endpoint accepts an empty signing key (`C107_empty_violated`).
* C108: the update requests of accounts and reports carry a role and a type which `update` never reads;
  after `type = funnel` with a funnel query the report still calls itself an event segmentation
  (`C108_role_violated`, `C108_report_type_violated`). Property lists of an event are acknowledged and
  not stored (`C108_event_lists_violated`).

Ingester
* C44: the scale of a number is dropped, 1.5 is stored as 15 (`C44_violated`).
* C45, C72: out-of-range numbers panic, timestamps become Int64 cells, dates can never be stored.
* C46: dictionary keys wrap in narrow dictionary types (`C46_violated`).
* C47: the row opening a session carries seconds, others milliseconds (`C47_violated`).
* C48: identify uses the dictionaries of group 0 for every group (`C48_violated`).
* C73: a panic poisons the mutex and all later requests of the kind panic (`C73_violated`).
* C75: a refused request opens the session; its begin row is never stored (`C75_violated`,
  `C75_never_begun`).
* C77: a client property named `event` desynchronises the dictionary of the event column
  (`C77_violated`).
* C109: a client property named like a system column (`event`) is accepted and its value is not stored
  anywhere (`C109_violated`).
* C111: the value of a string property of a second or later kind of groups is written under a number of
  the dictionary of another table, and cannot be read back (`C111_violated`; the cause is that of C48).
* C112: the properties of the user are stored with an event only if the request has a list of groups,
  even an empty one, and the user id alone (`C112_violated`).
* C113: the overlap test of `determine_compaction` is strict, so a part holding a single key is never read when a part around it is
  merged, and ranges share their end keys (`C113_violated`). A key may therefore be in several parts of one level.
* C114: `role` and `force_update_password` of an administrator's update are acknowledged and ignored (`C114_admin_violated`).
* C115: after one of the properties filled by the transformers is deleted (an ordinary delete by number), every
  event for which it is detected is refused (`C115_violated`). Besides, the property `OS` gets the family of the
  system and `OS Family` gets the family with the version, and `Version Patch` is created and never filled.
* C78: with both ids given, user id and anonymous id are swapped (`C78_violated`).

Query
* C49: "not equal" to several values is a disjunction and selects every row with a value
  (`C49_violated`, `C49_neq_all`).
* C50: the start of a range is rounded down to the unit of the column; month counts are cut to 32 bits
  (`C50_violated`, `C50_months_violated`).
* C53: averages of workers are averaged again; a worker without rows contributes 0 to minima and maxima
  (`C53_avg_violated`, `C53_zero_violated`).
* C54: rows failing the filter end the user's count; user 0 is taken for "no user yet"; a NULL user panics
  (`C54_filter_violated`, `C54_zero_violated`, `C54_null_violated`).
* C57: unique counting, constants and the user set depend on how rows are cut into batches
  (`C57_violated`).
* C58: an exclusion event which is a user's first row wipes the previous user's attempt; exclusions with a
  step range are never enforced (`C58_violated`).
* C59: the executor replaces the segment stream by an empty list, two segments panic (`C59_violated`).
* C60: users without hits are never reported, also when zero hits satisfy the comparison
  (`C60_violated`).
* C61: the entries of two predicates are paired by position, not by user (`C61_violated`).
* C62: values come in schema order under names in selection order; NULL is an error (`C62_violated`).
* C63: the buffers are extended once per batch, more than 2048 groups panic; groups are told apart by
  hash only (`C63_violated`; what this does to the result table, `C87_violated`).
* C64: rows dropped for one column use up the limits of the others; each batch counts anew
  (`C64_violated`).
* C65: a stream's own column named like the label is replaced; a missing non-nullable column is an error
  (`C65_violated`).
* C66: funnel buckets by month and year do not contain the month starts (`C66_funnel_violated`).
* C80: direct references to events are cut to 16 bits (`C80_violated`).
* C81: a string which is not in the dictionary fails the query (`C81_violated`).
* C82: a NULL property counts as 0 (`C82_null_violated`).
* C83: the last segment is dropped, a single one ignored, NULL entries panic (`C83_violated`).
* C84: retries and batches count a user again (`C84_violated`).
* C85: the attempt is greedy, a conversion starting at a later first step is missed (`C85_violated`).
* C86: averages are multiplied by 100; combined ratios are averages of ratios (`C86_violated`).
* C117: the plan of a funnel has no filter for the project, so rows of other projects whose event has the same number take part
  (`C117_funnel_violated`); segments are computed from the table before the filter of the query, for all projects
  (`C117_segments_violated`).
* C118: a search for events drops the events of the request which come without filters, which finds the rows of all events when none is
  left (`C118_events_violated`), and never looks at the filters of the request (`C118_filters_violated`); a search for groups
  with filters drops the range of time (`C118_groups_violated`).
* C119: an interval without a value counts as zero in the average, so a row with 10 in one of two intervals is ranked behind one with 6 in
  both (`C119_violated`); a table without intervals panics (`C119_panic`); the limit behind keeps that many rows per value of the first
  group, not that many values (`C119_limit`).
* C120: a user named by user id and anonymous id together gets another number than by the user id alone (C78) and is counted twice
  (`C120_violated`); so is every user whose rows are not together (`C120_workers_violated`).
* C122: a date is never accepted in a track request (`C122_dates`): a new property is made with the type Int64, for which
  `property_to_value` refuses a date (lib.rs 119-135); for a property of type Timestamp the date becomes an Int64 cell, which the
  store refuses as of the wrong type. An identify request with a date for such a property (`created_at`) is refused too, but only
  after the date has been stored with the group; from then on the requests of that group are refused (`C122_poisoned`).
* C123: the steps between which an event is excluded are counted from one in requests and from zero in the store, but the conversion back
  does not add the one, so each time a report is read and saved they move by one (`C123_drift_violated`) and in the end saving panics; of
  the groups of filters only the first is kept (`C123_groups_violated`); an empty list comes back absent (`C123_empty_violated`); a
  comparison with null panics (`C123_null_violated`).
* C124: a property whose column the table refuses stays in the caches: it is answered although it is not stored, the next property gets the
  same identifier and column, and both then share the column (`C124_phantom_violated`); times lose their fractions when a property is evicted
  (`C124_time_violated`).
* C125: requests that pass validation panic: property references to group 5 and up (index out of range), an empty list of groups of filters
  (`groups[0]`), aggregates the planner does not know, custom properties as breakdown of one event, weekly or monthly active groups and
  formulas, more than 178956970 years (`C125_violated`), and for properties that may be missing NULL among the values or no list of values
  (`C125_values_violated`).
* C126: the columns in the filters of a custom event are not read, so charts of such custom events fail in DataFusion (`C126_violated`).
* C127: "or" between the filters of a group is read as "and" (`C127_or_violated`); groups after the first are ignored
  (`C127_groups_violated`); a column both compared and matched against a pattern is decoded and then compared with the number of the string,
  so nothing is selected (`C127_pattern_violated`); a number with a fraction compared with a time stands for its digits without the point
  (`C127_fraction_violated`). "Not equal" to several values is meant as in C49.
* C128: a pattern filter decodes the rows of all projects with the dictionary of the project that asks: a row of another project whose number
  is not in it panics and the chart fails (`C128_violated`).
* C129: an empty list of groups of filters, a breakdown or constant by a group of index 5 or more, an exclusion filtered by a custom property
  or by a list with NULL (the filters of exclusions are not validated), an exclusion between steps counted from 0 and a period of too many years
  panic (`C129_violated`); so do the window unit `session` and windows of too many milliseconds (`C129_window_violated`), and a custom event
  first in a step, after the rows have been computed (`C129_custom_violated`).
* C130: the filter of a funnel has no condition on the project: funnels count the rows of all projects (`C130_project_violated`). Numbers
  compared with times in steps and exclusions stay decimals (`C130_times_violated`), and patterns in exclusions are matched against keys of
  the dictionary (`C130_pattern_violated`). Excluding up to the last step is refused (`C130_last_refused`).
* C131: the columns in the filters of a custom event are not read (`C131_violated`); a column both matched against a pattern and broken down by
  is decoded to strings and then sorted as keys (`C131_typed_violated`); in a release build 595056260442243601 months are 15 days
  (`C131_window_violated`). The field `touch` is accepted and never used.
* C132: comparing an Int32 property is refused as "not numeric" (`C132_violated`); "is true" without a list of values is refused for properties that
  are never missing (`C132_values_violated`), "equals" without one passes for the others (`C132_none_violated`); filters of
  exclusions are not checked (`C132_exclusions_violated`), and their steps are compared as if counted from 0.
* C133: a search for properties without `event_id` always panics: that column is put in front, but not its property, so labels are off by
  one and the last is out of bounds (`C133_panics`). A search for all properties labels the columns of the table with the properties of
  the project in the order of an unrelated list, and panics if there are more columns than properties (`C133_all`).
* C134: a search for some properties does not read the columns the filters of its events are about (`C134_violated`), so it is refused
  unless they are among the properties.
* C135: a search for groups forgets the period where there are filters (`C135_time_violated`: `filter_exprs = vec![and(filter_exprs[0], …)]`
  overwrites the second expression) and the order always (`C135_sort_violated`). A property of events passes validation and is then looked
  for in the table of the group, a panic (`C135_panics`). All properties are labelled as in C133 (`C135_all`).
* C136: a look-up by number shows missing values as whatever is in the buffer (0, "", false), because `a.value(0)` does not look at the
  validity of the slot (`C136_violated`), and panics for a number no event has (`C136_unknown`): `a.value(0)` of an empty column.
* C137: the values of a group's property are looked for in the table of events, a panic unless a column there has the same name
  (`C137_groups`). The filter on values is made for keys of the dictionary but applied after decoding, so asking for the cities that are
  Rome gives nothing (`C137_violated`; DataFusion compares the decimal of the key with the name, here they are just different). Numbers for
  times stay decimals (`C137_times_violated`). The columns in filters of custom events are not read (`C137_custom_violated`).
* C138: a missing number in a column is shown as 0 (`C138_missing_violated`; as missing in a single record). A decimal of more than 96 bits makes the
  whole answer panic (`C138_large_violated`). As the scale of numbers is dropped on the way in (C44) but decimals are shown with 16 digits after
  the point, a number sent with at most twelve digits is shown as 0 (`C138_sent_violated`).
* C139: in the labels of a funnel's groups a missing string is the empty one, decimals are rounded, so different rows look alike (`C139_alike`,
  `C139_violated`); a missing decimal is read from its slot, where arrow's row format leaves the smallest number, and that is a panic
  (`C139_missing_violated`).
* C140: `LimitGroupsExec` runs before dictionaries are decoded and knows `Int64`, decimals and strings only: a chart broken down by a boolean, a
  timestamp or a property with a dictionary of another width is a panic (`C140_violated`). `CountEvents` and `CountPerGroup { count }` are both
  labelled "Count", properties of the same name of events and groups alike, and the `name` of a query in the request is not shown at all
  (`C140_labels_violated`). A value that is missing is shown as 0, also for minimum and average, where 0 is not what it would be.
* C142: a user whose requests have sometimes both ids is shown as several users (`C142_violated`, the cause is that of C78). "Daily active" is
  planned like "Count unique" (event_segmentation.rs 876-884): in a chart by weeks it shows the users of the week, not of a day, and the charts
  of weekly and monthly active users are panics (`unimplemented!`, 885-886).
* C143: a chart of several events of which only some are broken down by a property that may not be NULL (`Event ID`) is refused as a whole: the merged column is not nullable and the rows of the other events have NULL (`C143_violated`). The event of
  a line is shown by its number, not by its name, if it is a custom event (`EventRef::name`, common/src/query.rs 225-231).
* C144: `PropValue` is an untagged enum whose first variant is a date, so a string property whose value happens to read as an RFC 3339 date is taken for a date, and such a request is never accepted, whatever the type of the property (`C144_dates`, `C144_violated`). A property which is `null` (or a list or an object) makes the whole request be refused with 400 (`C144_null`).
* C145: numbers in the filters of custom events are changed by being kept: the API gives the store digits with the scale of the number
  (platform/src/lib.rs 309-319), the store keeps the digits only and reads them with a scale of 16 (metadata/src/custom_events.rs 418-424,
  583-589), so that 12 is shown, and compared with in charts, as 12 * 10^-16 (`C145_number_stored`, `C145_number_violated`). A filter without
  a value comes back with an empty list (`C145_absent_violated`). A property attached to an event is in the answer and never shown again
  (`C145_attached_violated`, `C145_event_properties`); what is shown as `userProperties` of events are the custom properties
  (platform/src/events.rs 231-250). The display name of a group is in no answer (`C145_group_display_violated`). `GET
  /group-properties/:group_id/:prop_id` takes the two numbers in the other order, so that it answers for the wrong property, or panics for
  numbers from 5 (`C145_route_get_partial`, `C145_route_violated`); in the other routes a group number from 5 is a panic too. Not modelled:
  `events::get_by_name` (http/events.rs 38-47) takes two single `Path`s on a route of two parameters, which axum refuses.
* C146: holds for the answers. Outside the model: the body of every request is logged at level debug
  (`print_request_response`, common/src/http.rs 215-252, used in platform/src/http/mod.rs 111), so that passwords are in the log in clear text.
* C147: an update of an account with a role or with `forceUpdatePassword` is answered and both are dropped (platform/src/accounts.rs 66-82,
  metadata/src/accounts.rs; `C147_dropped`, `C147_account_violated`). The file of a backup is named after the hour (metadata/src/backups.rs
  69-91), so a second backup within the hour, allowed as soon as the first has left the idle state, overwrites the first, which is still
  listed as completed (`C147_backup_file_violated`).
* C148: `backups.data.last()` (cmd/src/backup.rs 146) is the last in the order of the keys, which are decimal strings: from the tenth backup to the
  ninetieth "9" is the last, then up to the nine hundredth "99" and so on, so the loop, which turns every ten seconds, makes several backups in a scheduled minute, each overwriting the archive of the one before
  (`C148_once_violated`; it holds for the first nine, `C148_once_partial`).
* C148: a scheduled backup to S3 panics (`create_backup` 233-237) and ends the loop until the server is started again (`C148_s3_violated`); one asked for
  through the API is marked completed without having been delivered (220-228, `C148_delivered_violated`).
* C148: the directory of the settings is ignored, archives go to the server's own directory (278-291, `C148_directory_violated`).
* C148: a start of the server resets the backups in progress but not those that are uploading (51, `C148_uploading_violated`).
* C149: the administrator and the first organization are made by two transactions, and a start looks for the administrator only (server.rs 64-101): a
  first start interrupted between the two leaves a server that starts and never gets its organization (`C149_organization_violated`).
* C149: a start looks for account 1 and otherwise makes a new administrator, whose id is never 1 again. Once account 1 is removed, which an administrator
  may do to their own, the organization's name is taken and no start succeeds any more (`C149_restart_violated`, `C149_never`).
* C150: `GET …/schema/events/name/:event_name` asks for the two parts of its path by two extractors that each expect one (events.rs 38-47), and always
  answers 500 (`C150_name_violated`).
* C150: `GET …/schema/group-properties/:group_id/:prop_id` takes the property for the group and the other way around (properties.rs 29-39;
  `C150_group_violated`, see also C145).
* C150: custom_events.rs 66-68 and properties.rs 150-152 nest the router with all routes made so far instead of a new one, so that logging in, signing
  up, settings, backups and all else that takes nothing from the path can also be reached under `…/schema/custom-events` and
  `…/schema/group-properties/:group_id` (`C150_nested_violated`).
* C151: a good token of an account that has been deleted is answered with 404 for every request (context.rs 182 and error.rs 99), not with 401, so that a
  client cannot tell it from a thing that is not there (`C151_gone`, `C151_gone_violated`).
* C151: making a backup is answered with 204 and a body (http/backups.rs 20). A reply with 204 has no body, so whoever asked for the backup never
  learns its number (`C151_backup_violated`).
* C152: strangers have to be strangers to more than the project. Because of C43 the owners and administrators of any organization have a part in every
  project, so `Stranger` asks for neither role in the organization of the token. Somebody who may only read in a project can still write to it, namely
  bookmarks (bookmarks.rs 28-39; `C152_readonly`).
* C153: the projects share the two locks of the ingester (sources/http/mod.rs 192, 236). A request for one project that panics leaves the lock poisoned,
  and no request for any other project is answered any more (`C153_lock_violated`; the panic is that of C73).
* C154: a time of day in milliseconds is written as one in seconds (scalar.rs 77, 114), so that a filter for 1500 milliseconds is read as one for 1500
  seconds (`C154_violated`). Intervals and dictionaries have a stored form but panic when written or read (`C154_total`, `C154_read_violated`). The requests of
  the API make none of these (`C154_requests`).
* C155: in a segment by an aggregate the first user of the rows is measured even without a row that counts, so that they are in the segment "minimum at
  least 10" (`C155_first_violated`), and the average of nobody's rows panics (`C155_average_violated`). A row without the property counts as one with what the
  buffer has there (`C155_null_violated`). The scale of a decimal in a request is dropped (planner/segment.rs 195), so that 7.00 is not at most 10
  (`C155_scale_violated`), and a number of the other kind than the column panics (`C155_kind_violated`). The conversions of a request's aggregate to this
  predicate are `todo!()` (logical_plan/segment.rs 31-63), and its `time_window` is ignored by the planner.
* C151: a number of a group above four has no answer, the index being out of bounds (http/properties.rs 35-125, `C151_groups_violated`).
* C156: a process that ends between making the directory of a table and writing its manifest leaves a store that can never be opened again, since `recover`
  fails if one table has no manifest (db.rs 298-306, 406-414) and `create_table` writes it last (`C156_interrupted_violated`, `C156_stuck`). The options of a table
  are those of the first start; changes of the configuration file have no effect on tables there are (`C156_settings_violated`).
* C157: in the format `JsonCompact` a chart is neither unpivoted nor cast (query/src/event_segmentation.rs 631, 684), but its aggregates are still read as
  decimals with `unwrap` (aggregate_and_sort_columns.rs 146-151): every chart that counts events or users panics (`C157_counts_violated`). With a breakdown behind the
  date in the table the date is among the limited groups, whose type is `unimplemented!()` (limit_groups.rs 153-176): panic again (`C157_breakdowns_violated`). The
  average of what is left is taken over the different aggregates of a row. Funnels accept the format and ignore it (platform/src/funnel.rs 66-109).
* C158: `DType::List(t)` becomes the type of `t` in arrow and arrow2 (common/src/types.rs 179-190, 237-251), and a list of arrow is read as its element type: no list
  type comes back (`C158_lists_violated`). Sizes are cut to 32 bits (`C158_size_violated`).
* C159: the last user of the demo store is drawn and thrown away, so that a run has one user less than it announces (events-gen/src/generator.rs 76-84;
  `C159_users_violated`). If the end is not the end of a day, users come after it (`C159_late_violated`). With no users a day the counter overflows
  (`C159_none_violated`).
* C160: the metadata of other projects never matters to a query, their rows do. One row of another project ends a search with a pattern filter
  (`C160_violated`, for the reason of C128), and a funnel keeps rows of all projects (`C160_funnel_violated`, for the reason of C117).
* C161: somebody who registers (scenario.rs 317-374) goes on behind the `match` with the action before, whose event is written once more: after adding a
  product to the cart it is said to be added twice and the cart has it once (`C161_added_violated`). After a login the action before is even taken again
  (312-315), so that the product is put into the cart once more. `products_bought` and `products_viewed` are only looked up (376-402), never filled: nobody
  ever gives a product back (`C161_no_refunds`), "Products Bought" is never written and a product seen before is not passed over. The time is compared with
  the end only behind an action (457), not at the beginning of a session (212-221): its first event can lie after the end (`C161_until_violated`).
* C162: deals are drawn among five (events-gen/src/store/products.rs 106, 138-140) whatever number of products has a discount: with fewer than five, looking
  at a deal can panic (`C162_deals_violated`). The product a user wants is drawn among the first four of the store (96, 142-144), no other is ever wanted
  (`C162_wanted_violated`).
* C163: a file of companies without rows is accepted (events-gen/src/store/companies.rs 30-47), and then `choose(rng).unwrap()` (50) panics for every person
  (`C163_firms_violated`); files of places or devices without rows are refused (store/profiles.rs 126-130).
* C164: `push_result` (funnel.rs 180-236) adds every attempt to the counts and only returns what the filter says of it, which is read only to skip the rest of a
  user that is counted once (637-640). So otherwise a filter changes nothing (`C164_ignored_violated`), and with it a user who converts twice is counted twice
  when those are asked for who dropped off (`C164_unique_violated`): such a funnel is the one that counts every conversion (`C164_dropped_violated`).
  Counting by session is counting every attempt too: only `Unique` is looked at (638).
* C165: the row that ends a session carries seconds (cmd/src/lib.rs 399), others milliseconds, and its length is computed from the last hit, since every hit
  overwrites `created_at` (metadata/src/sessions.rs 75-102), so it is the time without hits and not that of the session (`C165_violated`). Rows are written one by
  one, sessions deleted in one transaction at the end (sessions.rs 126-132): after a crash in between the rows are written again (`C165_twice_violated`).
* Also seen on the way: everything that goes wrong in a query is a 500 (error.rs 111-122), also a name of an event or a property that is not there;
  logging in with a cookie that names a deleted organization is a 404 (auth/provider.rs 115); the messages of `Forbidden` and `Internal` are exchanged
  (metadata/src/error.rs 16-19).

## 5. Tests of the theorems

Every claim was tried against wrong programs: in a scratch copy one definition of the model is changed
the way a realistic bug would change the code, and the project is rebuilt. `seeded/LOG.jsonl` has one line
per attempt: the definition, the edit, the claim it breaks, the declarations that no longer compile
and, where the edit survived at first, the theorems added or tightened. An edit is counted as
detected only if a declaration fails; when only a supporting lemma failed, the lemma was
assumed and the build continued until a claim theorem failed.
