# wolfSentry formal model (Lean 4): design

## Layout and method

* `lean/Verif/Model/*.lean` — the model: total functions over lists, naturals, integers, bit vectors and plain structures, one
  file per C translation unit or concern.  Every definition cites the file and lines in `/repo` it models, and says where it
  simplifies.  Undefined behaviour of C is a result of its own (`ub`), so that "is never undefined" can be stated.
* `lean/Verif/Spec/*.lean` — small specifications, independent of the functions of the model: they use its data types only.
* `lean/Verif/Props/*.lean` — the claims: theorems named `Cnn_…` after the property they belong to, each followed by an
  `example` in which a concrete, non-trivial case meets its hypotheses.
* `lean/Verif/Proof/*.lean` — lemmas.

Concurrent code (counters, the readers/writer lock) is a transition system with any number of threads, and the theorems quantify
over all schedules.  State is quantified over all histories of calls (inductive `Reach` predicates), user-supplied handlers,
resolvers, clocks and comparison functions over all functions.

Where the code violates a property, the negation is proved on a concrete witness (`…_finding_…`, `…_not_…`, `…_broken`, …), and
what does hold is proved under extra hypotheses, with the suffix `_partial`.  The property then stays "partial".

The theorems are tested against wrong programs (`seeded/LOG.jsonl`): a realistic bug is put into the model in a scratch copy, the
project is rebuilt, and if no theorem fails, one is added.

## Per-property plan and status

| id | property | model (lean/Verif/Model) | specification | proof | status |
|---|---|---|---|---|---|
| C01 | Rule ordering is a strict total order on rule keys | RouteKey | Spec/RouteKey | comparison laws of each field, lexicographic composition | proved |
| C02 | Table stays sorted and duplicate-free | Table, RouteTable | sortedness stated with the comparators | invariant over all operation lists, for every lawful comparator; comparators of the six tables proved lawful | proved |
| C03 | Table operations behave like a finite map | Table | finite-map laws | refinement of the sorted list to a map, over all histories | proved |
| C04 | Object IDs are unique and never the reserved value | Table | - | invariant over all histories with a wrapping 32-bit counter | proved |
| C05 | Linked list primitives preserve a well-formed doubly linked list | DList | Spec/DList (a chain of cells represents a list) | representation predicate on a heap, one theorem per primitive; negations for stale links | partial |
| C06 | CIDR semantics of address matching | RouteKey | Spec/RouteKey (bits of an address) | bit-level reasoning; exact set of compared bits for every length | partial |
| C07 | Bitmask semantics of address matching | RouteKey | Spec/RouteKey | bit-level reasoning | proved |
| C08 | Wildcard fields match anything, non-wildcard fields match only equals | RouteKey | Spec/RouteKey (field-wise match) | case analysis over wildcards and direction | proved |
| C09 | Lookup returns only matching rules | RouteTable | Spec/Lookup (Matches) | invariant of the scan | partial |
| C10 | Lookup does not miss a matching rule | RouteTable | Spec/Lookup | invariant of the scan over a sorted table; refutations on concrete tables | partial |
| C11 | Exact lookup finds a rule iff it was inserted | RouteTable | Spec/Lookup | sortedness and scan | proved |
| C12 | Specificity comparison of candidates is consistent | RouteKey | Spec/Lookup (score) | case analysis; refutation on a concrete pair | partial |
| C13 | Rule insertion validates wildcards and widths | RouteOps | Spec/RouteOps (CreateOK) | exact acceptance condition by case analysis, invariant over histories of tables | partial |
| C14 | Failed rule insertion leaves the table unchanged | RouteOps | Spec/RouteOps | case analysis of every exit of the insertion; refutations for eviction and failing actions | partial |
| C15 | Deleting a rule with live connections is deferred | RouteOps, RouteHistory | Spec/RouteOps | invariant over histories | partial |
| C16 | Purging removes only expired rules, oldest expiry first, and terminates | RouteOps, RouteHistory | Spec/RouteOps | invariant of the purge queue over histories; induction on the queue | partial |
| C17 | Bound on purgeable rules | RouteOps | Spec/RouteOps | counting | partial |
| C18 | Connection count never exceeds the configured maximum, under any interleaving | ConnCount, Atomic | Spec/Atomic | inductive invariant over all interleavings of any number of threads | partial |
| C19 | Rule meta counters never wrap | Atomic, Dispatch | Spec/Atomic | inductive invariant over all interleavings | partial |
| C20 | Penalty-boxed traffic is rejected until the box expires | Dispatch | Spec/Dispatch | case analysis, arbitrary handlers | partial |
| C21 | Derogatory threshold boxes offenders | Dispatch | Spec/Dispatch | case analysis | partial |
| C22 | Greenlisting is overridden by the penalty box | Dispatch | Spec/Dispatch | case analysis | proved |
| C23 | Dispatch without a verdict falls through to the default policy | Dispatch | Spec/Dispatch | case analysis | proved |
| C24 | Action lists run in order with STOP/disabled/inhibit semantics | Actions | Spec/Actions | induction on the list, arbitrary handlers | proved |
| C25 | Action list editing | ActionList, DList | Spec/Actions (list editing) | refinement of the linked cells to a list | partial |
| C26 | Insert and delete actions run at most once per rule lifetime | Dispatch, RouteOps | Spec/RouteOps | state machine of the two marks; refutations | partial |
| C27 | Built-in object names are protected | Events | Spec/Events | decision logic, invariant over histories | partial |
| C28 | Rule flag updates only touch permitted bits | RouteOps | - | bit-vector extensionality | partial |
| C29 | Reference counting never frees an object that is still referenced | RefCount | Spec/RefCount | invariant (count = references held) over all histories | proved |
| C30 | Readers/writer lock mutual exclusion | RwLock | Spec/RwLock | inductive invariant over all schedules of any number of threads; refutations with deadlines | partial |
| C31 | Lock recursion balances | RwLock | Spec/RwLock | as C30 | partial |
| C32 | Lock promotion and reservation | RwLock | Spec/RwLock | as C30 | partial |
| C33 | Every API call releases the lock it acquired | LockBal | Spec/LockBal | effect system over the control-flow skeletons of 104 functions: a verified static analysis, run by the kernel, whose soundness is proved for every run | partial |
| C34 | Error codes round-trip | ErrCode | - | arithmetic | proved |
| C35 | Time conversions round-trip | Time | - | arithmetic | partial |
| C36 | Base64 decoding is correct and bounded | Base64 | Spec/Base64 (RFC 4648 encoder) | induction on the text | proved |
| C37 | User-value store semantics | Kv | Spec/Kv (typed map) | refinement over all histories | partial |
| C38 | Read-only user values cannot change | Kv | Spec/Kv | invariant over all histories | proved |
| C39 | KV validator invariant | Kv | Spec/Kv | invariant over all histories | partial |
| C40 | Address family names and numbers map one-to-one | AddrFam | Spec/AddrFam | invariant over all histories | proved |
| C41 | Event configuration is validated and preserved | Events | Spec/Events | decision logic | partial |
| C42 | Auxiliary event graph stays safe | EventGraph | - | invariant over all histories | proved |
| C43 | Event priority and label invariants | Events | Spec/Events | invariant over all histories | proved |
| C44 | Context exchange is an involution and exchanges all policy state | Context | Spec/Context | algebraic laws | partial |
| C45 | Context clone is faithful | Clone | Spec/Clone (copy up to renaming of objects) | simulation between source and clone, by induction on the tables | partial |
| C46 | Cleanup hooks run LIFO exactly once | Cleanup | Spec/Cleanup | induction on the hook list | partial |
| C47 | Numeric text rendering is exact and bounded | Format | Spec/Format | induction; exact text | partial |
| C48 | Bitmask-family reference counts | RouteOps, RouteTable | counting over the table | invariant over histories | proved |
| C49 | JSON parser accepts exactly JSON, in any chunking | JsonSax | Spec/JsonSax (RFC 8259 grammar as inductive relations), Spec/JsonCut (texts cut off) | simulation between grammar derivations and the automaton; chunk independence by a per-byte step | partial |
| C50 | JSON dictionary is a map with logarithmic depth | RbDict | Spec/RbDict (map; black height) | refinement and invariants over zipper paths | proved |
| C51 | A dispatch reports the rule it acted on | Dispatch | Spec/Dispatch | case analysis | proved |
| C52 | JSON integers are classified and converted by value | JsonNum, JsonSax | Spec/JsonNum (value of a numeral) | induction on digits | proved |
| C53 | Strings are written so that they are read back unchanged | JsonNum, JsonSax | Spec/JsonNum | induction on the text, with C49 | proved |
| C54 | Numbers in a configuration are stored exactly or refused | ConfNum | Spec/ConfNum | induction on digits, case analysis | partial |
| C55 | A configuration can be loaded without touching rules and events | Config, ConfigText | Spec/Config | simulation between the two loads | proved |
| C56 | A configuration document has exactly its documented effect | Config, ConfigText | Spec/Config (meaning of a document tree) | equivalence of the event automaton with the tree semantics, then C49 for texts | partial |
| C57 | An exported rule loads back as the same rule | Format, Config, ConfigText, RouteOps | Spec/RoundTrip | the text of C47 is a derivation of the grammar of C49; its meaning by C56 | partial |
| C58 | A JSON text parsed into memory gives the value it denotes | JsonDom over JsonSax | Spec/JsonDom (trees, Reads) | the events of a document drive the builder: mutual induction over the tree; converse from uniqueness of the document | partial |
| C59 | A value written as JSON is read back as the same value | JsonDom, Format | Spec/JsonDom (Writable, Same) | the text written is a Document of a tree that Reads to the value: mutual induction; then C58 | partial |
| C60 | Arrays of JSON values behave as lists | JsonArray | Spec/JsonArray (Step, Run on lists) | representation invariant over all histories, undefined behaviour explicit; refutations | partial |
| C61 | Strings, integers and truth values stored in JSON values come back unchanged | JsonValue | Spec/JsonValue (InRange) | induction on the variable-length encoding; modular arithmetic | proved |
| C62 | A path leads to the value it names | JsonValue | Spec/JsonValue (Item, Walk) | induction on the tokens; refutations | partial |
| C63 | The lwIP packet filter gives lwIP the answer of the rules | Lwip, Dispatch | Spec/Lwip (answer, RuleRejects, RuleResets) | the callback reduced to a dispatch, then the dispatch theorems of C19-C22 | partial |
| C64 | The lwIP packet filter asks the rules about the traffic it was shown | Lwip, Dispatch | Spec/Lwip (AskedBit, ToldBit, questionOf) | case analysis over layers and events; lookup theorems | partial |
| C65 | The lwIP packet filter counts connections | Lwip, Dispatch | Spec/Lwip (History, connectionsAfter) | frame theorem of dispatch (other rules keep their counts), induction over the history | partial |
| C66 | Installing lwIP callbacks is complete, all or nothing, and undone by shutdown | Lwip (installation) | Spec/Lwip (Wanted, Reaches, Silent, Life) | invariant over all histories of installations and shutdowns | proved |
| C67 | A rule can be exported and made again | Exports (byte-level data area), RouteOps | Spec/Exports (StoredAs, Tidy), SameKey, RuleMatches | byte-level lemmas on the data area, then the insertion theorem of C14 | partial |
| C68 | The built-in tracking action adds a rule for the traffic seen | Exports (trackPeer) | Spec/Exports, RuleMatches, Charged | the insertion theorem behind C67 applied to the export the action builds | partial |
| C69 | Thread contexts have identities of their own | Thread (atomic steps) | Spec/Thread (inUse, Distinct, Reach, Nested) | invariant over interleavings; finding by an explicit run of 2^24 rounds, proved by induction | partial |
| C70 | Deadlines of a thread context | Thread (contexts), RwLock | Spec/Thread (Proper, SameButDeadline), C30 holds | case analysis; lock invariant of C30-C32 | partial |
| C71 | A thread can ask what it holds, and be made read-only | Thread (queries, read-only) | Spec/Thread (ReachRo), C30 holds | lock invariant; read-only runs refine ordinary runs | partial |
| C72 | Exporting the whole rule table and loading it back | Dump, Format, ConfLoad | Spec/Dump (wholeText, Session, Completed, ReinsertsAll) | invariant of export sessions; grammar of the whole text; induction over the rules with C57 | partial |
| C73 | Iterating over a table visits each entry once, in order | Dump (cursors) | list positions in the statement | induction over the steps | proved |
| C74 | The built-in allocator hands out aligned, disjoint areas, keeps their contents, and gets every block back | Alloc | Alloc (areas in callers' hands, the system's honest answers) | invariant relating areas to live blocks; modular arithmetic on addresses | partial |
| C75 | A timed wait on FreeRTOS ends at its deadline and not before | FreeRtos | moments in nanoseconds in the statements | exact integer arithmetic on ticks and nanoseconds | partial |
| C76 | A lock is destroyed exactly when nobody uses it | LockLife, RwLock | RwLock (holdings from the log of calls) | invariant of C30 and an invariant on left-over counts, over all interleavings | partial |
| C77 | A user value is rendered as its JSON text, within the caller's buffer | `KvRender` (`render`, `writer`, `snprintf`, `translate`) | `Spec/KvRender` (`ValueText`, `Holds`, `SameFrom`, `codeTable`), `Spec/JsonSax`, `Spec/JsonDom` | The memory behind the buffer is part of the state; the JSON writer by induction over the pieces of C59; decimal text by strong induction; reading back by C59, plain strings by the grammar; findings by the parser acceptance theorem of C49. | partial |
| C78 | A rule written to a stream is one complete line describing it | `RuleText` (`lineOps`, `addressOps`, `flagsOps`, `endpointOps`, `familyOps`, `run`) | `Spec/RuleText` (`AddrIs`, `EndAddrIs`, `flagsText`, `line`, `textOn`) | A call is a list of output steps run against an oracle of failing outputs; runs are analysed by induction over the steps (complete, or a beginning and an error; references kept), the texts by induction over address bytes and flag bits. | partial |
| C79 | The default event stays the one that was set, and alive | `DefaultEvent` (`create`, `drop`, `delete`, `setDefault`, `clearDefault`, `getDefault`) | `Spec/DefaultEvent` (`Record`, `inForce`, `Known`, `Answer`) | Invariant over histories: every count is the number of places that hold the object (table, default, others); agreement of the state with the record of successful calls, by induction over the history. | proved |
| C80 | Results can be told in words | `ResultText` (`setSource`, `setError`, `sourceString`, `errorString`, `errorName`, `resByFlag`) | `Spec/ResultText` (`nameOf`, `codeText`, `sourceText`, `UserError`, …) | Agreement of the arrays with the history of registrations, by induction over the history; C34 for encoded results; the finite tables by kernel evaluation over every entry. | partial |
| C81 | A caller built for another layout is turned away | `ResultText.compatible` | `Spec/ResultText` (`layoutBits`, `knownBits`) | Bit by bit. | proved |
| C82 | A context is made whole or refused, and shut down without a trace | `ContextLife` (`init`, `contextAlloc`, `checkHpi`, `shutdown`), on `RefCount` | `Spec/ContextLife` (`Acceptable`, `whole`, `demand`, `Settled`, `Kept`, `NoCycle`) | Cases over the first refused allocation; shutdown by the reference invariant of C29 and a measure on pending drops. | partial |
| C83 | A configuration load is a transaction | `LoadTx` (`initLoad`, `feedLoad`, `finiLoad`, `oneshot`, `commit`, `clone`, `exchange`, `contextFlush`, `libCall`), on `LoadConfig` and the table model | `Spec/LoadTx` (`use`, `Feeding`, `DraftOf`, `FlushedTo`, `WithInhibit`, `DeleteDue`, `InsertDue`, `RunsOf`, `loaded`) | The session is shown to depend on the context only through the parser callbacks; invariants over every library call a load can make (inhibited, muted, keeps the draft apart), then cases on the flags; handler runs by induction over the table. | partial |
| C84 | A loaded configuration is what is in force | `LoadTx` (`libCall` and everything below it, `clone`, `commit`), on `LoadConfig` and the table model | `Spec/Loaded` (`View`, `Seen`, `Does`, `Done`, `AskedFor`, `MadeRoom`, `Entered`, `AsksFor`, `ruleObjects`, `Mild`, `Issues`) | The meaning of a document (C56) is turned into a list of calls, one of them per rule object; each call that succeeds is shown to do to the view what `Does` says, with an invariant on contexts (`Good`: table in order, purge queue in order, rules linked to events of the table, IDs given out) that every library call, flush, clone and commit keeps; the statements about rules are by induction on the list of calls. | partial |
| C85 | Exported rules come back | none new: the exporter (`Format`, `Dump`), parser (`JsonSax`), loader (`LoadConfig`, `LoadTx`) and table models joined | `Spec/Restore` (`Restored`, `Bare`, `Settled`, `Works`, `Holdable`), `View`/`Seen`/`Twin` of `Spec/Loaded` | The calls an export turns into (C72, C57) are made one by one on the context with its rules removed: each insert succeeds, since the rule was in a table in order (`Good`, C84), and enters a rule with the same key, by induction on the exported rules; both tables are sorted by the same order, so the rules are at the same places. Findings by evaluating the model. | partial |
| C86 | A loaded configuration decides the traffic | none new: loader (`LoadConfig`, `LoadTx`), table (`RouteOps`), search (`RouteTable`, `RouteLookup`) and dispatch (`Dispatch`) models joined | `Spec/Firewall` (`Packet`, `Covers`, `First`, `Uncovered`, `Answers`, `Default`, `Decides`), `View` of `Spec/Loaded` | Along the calls a document stands for (C84) every rule stays tidy (C13) and uncharged, by induction on the calls; in a context in order the search returns a covering rule of the best priority or, if none covers, nothing (C09, C10, restated over what is in force); the verdict then follows from C23. Findings by evaluating the model. | partial |
| C87 | An offender is banned, for the time configured, and no one else | Model/Dispatch (dispatch1, dispatchById, countHit, unbox, judge) | Spec/Offender (Runs, Visit, tally, Guilty, Banned, StillOn, PlainReject) | one call: verdict in terms of the record (from the C20-C23 case analysis) and frame for the other rules; then induction over the history | proved |
| C88 | Objects stay alive while threads look up, use, replace, delete and release them at the same time | Model/ObjRace (exec, start, Step, Reach) | Spec/ObjRace (touched, Fault, LocksGetters, LocksReleases, stored) | inductive invariant over all interleavings: every reference has an owner (table, default event, a thread), the count is the number of owners, and each thread at each access has an owner or the lock; findings are concrete schedules checked by the kernel | partial |
| C89 | A loaded configuration over time | DispEnv.dispatch1, dispatchById, lookup, use (load in place and LOAD_THEN_COMMIT) | Spec/OverTime (Same, Left, Sole, Watched, strikes, AsksAbout), Spec/Offender, Spec/Firewall, Spec/Loaded | an invariant of dispatch histories (Aged: the table differs from the loaded one by expired rules and by ban, hit and time marks only) carries C86 (which rule is found) to every later state; C87 (one rule over a history) then counts the offences; document_facts/commit_facts (C84, C86) give the invariant after a load | partial |
| C90 | The limit on connections holds over time | DispEnv.dispatch1, dispatchById, lookup, use (load in place and LOAD_THEN_COMMIT) | Spec/Connections (Opens, Closes, ledger, opened, closed, held, Peaceful), Spec/Offender, Spec/OverTime | one visit moves the count as the ledger does (judged_enter); induction over histories (con_run); ledger_balance shows the ledger is the number of open connections while reports stay within the limit; C89 says which rule answers after a load | partial |
| C91 | A configuration can be replaced in service | use, libCall, DispEnv.dispatch1, dispatchById | Spec/Loaded (view), Props/Loaded (startOnClone, startInPlace), Props/Service (Served, Orderly, Lasting) | the invariant of dispatch histories (Aged: C89, extended by the purge queue and the limits) gives the invariant of C84 (Good) back after traffic; induction over service histories (Served); commit_facts/document_facts (C84, C86) with a start that does not mention the traffic; C83 for refused loads | partial |
| C92 | Deadlines handed to the system are exact | Callbacks, builtinGet, nowPlusDelta, toTimespec, deadline (Model/Deadline), toEpoch, fromEpoch (Model/Time) | Spec/Deadline (Normal, nanos, Reading) | integer division bounds; the host callbacks are a record, so the one-step/two-step equation holds for all of them; round trip by C35 | partial |
| C93 | Every JSON failure has a text of its own | errorStr, domErrorStr, typeStr (Model/JsonText); Sax.parse, Dom.parse | Spec/JsonText (meaning, Own, typeName, typeNumber) | case analysis of the tables; an invariant of the parser over all chunks (Proof/JsonErr): whatever holds of 0, of the codes it raises and of the callback codes holds of the code it returns | partial |
| C94 | The parser's internal error never comes out | Sax.parse, feed, fini (Model/JsonSax) | the statement itself | an invariant over all chunks: inside a string the substate is one of those the string automaton knows, and the dispatcher is not asked for the main automaton (Proof/JsonNever) | proved |

## What each claim covers, and what is missing

* **C01** (proved). All well-formed rules.
* **C02** (proved). All histories of all tables, any lawful comparators; comparators of the actual tables shown lawful.
* **C03** (proved). Finite-map laws over all histories.
* **C04** (proved). Uniqueness and freshness over all histories with the wrapping counter; C04_wrap_fails_once records that one allocation fails at wrap-around.
* **C05** (partial). prepend, append, delete, table splice/unlink proved with no assumption on stale links; insert_before/after need a NULL stale link at the ends. The full claim is false of the code (C05_insertBefore_stale_broken, C05_purge_time_set_corrupts).
* **C06** (partial). Proved for prefix lengths multiple of 4; exact characterisation of the compared bits for every length; the claim is false of the code for other lengths (C06_not_cidr_22, C06_not_cidr_17).
* **C07** (proved). Same width, whole bytes. C07_narrow_target_ignored records a defect for narrower targets.
* **C08** (proved). Prefix addresses (C08_*) and, with C07's mask comparison, every shape of stored address: C08_covers_iff states for masked and unmasked rules alike exactly when a rule covers a query.
* **C09** (partial). Soundness of every returned rule for prefix addresses whose lengths are multiples of 4 (C06) and, with C09_sound_masked_partial, for masked rules of regular shape; for any rule, membership. False of the code for penalty-box exclusion when the rule's key equals the query (C09_excluded_rule_returned).
* **C10** (partial). False of the code in general: four refutations (C10_misses_*, C10_diverges). Proved: best priority among all matching candidates for fully specified queries and same-family rules, masked families (C10_masked_family_reach_partial, C48_bitmask_families), and any-family queries; termination conditions.
* **C11** (proved). Every sorted table; sortedness over histories is C02.
* **C12** (partial). False of the code in general (C12_not_antisymmetric); antisymmetry proved when inexact-field counts differ or both rules have remote bitmasks.
* **C13** (partial). Exact acceptance condition, error codes, stored fields, masking, and zeroed wildcard fields over all histories proved. Padding proved for prefix lengths multiple of 4; the claim is false of the code for other lengths (C13_padding_wrong, C13_prefix_damaged), and the direction flags can be stripped by configuration (C13_direction_lost).
* **C14** (partial). That insertions which meet the stated conditions succeed and add exactly the stored form of the rule is proved (C14_insert_succeeds). Unchanged table proved for every failure except eviction of the stalest rule and failing insert actions; both exceptions are shown real (C14_evicts_before_failing, C14_action_failure_breaks), as is the mark left by C14_upref_failure_marks.
* **C15** (partial). Immediate deletion, deferral, revival, deletion by key proved over all histories. 'Removed exactly when the count reaches zero' is false of the code (C15_stays_at_zero, C15_purged_with_connections).
* **C16** (partial). Only expired rules removed: all histories. Order and completeness: all histories without a hit on the queue's last rule; termination when no expired rule is held. Negations: C16_purge_diverges, C16_hit_breaks_order.
* **C17** (partial). After a successful insertion the count is at most max(limit, count before); a full queue gives up one rule, the first to expire (C17_insert_evicts). Over-limit tables arise by other calls and stay over the limit (C17_expiry_set_exceeds, C17_over_limit_stays).
* **C18** (partial). Limit and quiescent exactness proved for every thread count and interleaving when the counter cannot reach 65535; C18_race_at_65535, C18_no_limit_above_65535, C18_spurious_rejection record where the claim is false of the code.
* **C19** (partial). Saturating increments/decrements proved for all values and interleavings except the defects recorded as theorems.
* **C20** (partial). REJECT and staying boxed proved for every dispatch on a held rule, for observing handlers and (C20_any_handlers) for arbitrary handlers that do not touch the box; release proved. 'and not ACCEPT' is false of the code (C20_accept_survives); over-limit and commendable exceptions are witnessed.
* **C21** (partial). Boxing iff threshold reached, for every unboxed rule and results not over the connection limit; over the limit the claim is false of the code (C21_over_limit_not_boxed).
* **C22** (proved). Observing handlers; rule in the table or no fallthrough rule. C22_fallthrough_uses_traffic_flags records a defect on the fallthrough path.
* **C23** (proved). Dispatch by ID, by addresses with and without a rule; refused policies in Props/TableState. C23_invalid_arguments_use_fallback and C23_by_id_refuses_bitmask_rules record defects.
* **C24** (proved). All handlers, all lists, all six kinds.
* **C25** (partial). Every edit sequence except insert-after at the tail, which is broken in the code (C25_insert_after_last_broken).
* **C26** (partial). At most once per lifetime while nobody touches the marks; marks can be cleared through the API (C26_mark_clearable, C26_bulk_reruns); delete actions run without insert actions (C26_delete_without_insert).
* **C27** (partial). Creation of reserved labels refused, refusal only for reserved ones, and reserved objects exist only from initialisation: all histories. Deletion of a built-in action is NOT refused by the code (C27_builtin_action_deletable).
* **C28** (partial). Acceptance condition, resulting word, reported words and atomicity proved; bits 16 and 17 are not protected (C28_marks_not_protected).
* **C29** (proved). All histories of checkouts, insertions, removals and drops in the model, for callers that respect the API; findings recorded as theorems (object_release after delete, route drop reading a freed event's config, self-reference leak).
* **C30** (partial). Proved for any number of threads and every schedule of caller-correct calls, with deadlines whenever an expiring wait is harmless, and unconditionally without deadlines. The full claim is false of the code: C30_writer_timeout_breaks_exclusion, C30_promotion_by_stranger_breaks_exclusion.
* **C31** (partial). Releases by holders always succeed, counters equal the caller's nested holds, nested holds block writers, a balanced history leaves the lock free and grantable, no lost wake-up: same hypotheses as C30. Refutations for waits that expire at the moment of the grant and for strangers: C31_late_grant_cannot_be_released, C31_late_reader_untracked, C31_stranger_releases_a_reader.
* **C32** (partial). One reservation, second attempts refused with BUSY and no effect, promotion only for the last holder and keeping the hold count: same hypotheses as C30. Findings: AUTO_DOWNGRADE never happens, a timed-out promotion leaves its count behind.
* **C33** (partial). Balanced for every run of 86 of the 104 API functions (C33_balanced_partial, C33_session_partial), for every successful call of all of them (C33_success_balanced), plus contracts of clone, exchange, JSON load and the lwIP callback installer. The unrestricted claim is false: C33_finding_* give failing runs of 18 functions (and of context_free, shutdown, context_clone, config_json_init, install_lwip_filter_callbacks) that leave a lock held or release one they did not take.
* **C34** (proved). Full domain.
* **C35** (partial). Round trip t->(s,ns)->t proved for every int64 time. Forward direction proved for s>=0; negation witnesses for negative seconds and for unchecked overflow.
* **C36** (proved). Round trip, buffer bound for all inputs and outcomes, junk skipping. Malformed padding accepted is recorded as a finding theorem.
* **C37** (partial). Refinement of an abstract map by every call after every history; the ID-exhaustion outcome is characterised (C37_every_outcome) and excluded for histories shorter than 2^32-2 calls. Falsity at ID exhaustion, get_json and -0.0 are finding theorems.
* **C38** (proved). All histories of store/delete/mutability/validator calls, including ID exhaustion. context_flush does drop protected values (finding).
* **C39** (partial). Invariant over all sequential histories; false under concurrent validator installation and for validators that inspect the read-only bit (finding theorems).
* **C40** (proved). All histories (with other tables competing for IDs). Built-in tables: round trip with the exceptions LINK64/UNSPEC. Findings: registered names are case-sensitive, may shadow built-ins; ntop without object pointer ignores registered families.
* **C41** (partial). Acceptance exactly characterised, accepted configurations consistent, read-back exact. Findings: size check wraps, init pads twice, NULL update uses an uninitialised value.
* **C42** (proved). All histories of creation, deletion, assignment and rule insertion.
* **C43** (proved). Event/action tables over all histories, label order, length limit, priority tracking (Props/TableState).
* **C44** (partial). One exchange: proved for all contexts that obtain the locks. Twice: exact restoration when no rule ID is shared; for a derived (cloned and edited) second context the first is restored exactly and the second up to the state of shared rules. Involution is false of the code (C44_not_involution); further findings C44_unrelated_rules_overwritten, C44_purge_queue_disordered.
* **C45** (partial). Clone of every well-formed context (cross-references to objects still in their tables; memory available) proved to succeed and to be a copy up to a renaming to new objects: tables, order, IDs, hit counts, contents, ID index, settings, reference counts; source untouched; independence both ways. False of the code: shared fallthrough rule, idle limit not copied, family back links, sources with deleted-but-referenced events, private-data resize, remembered any-family rule (finding theorems).
* **C46** (partial). All histories with handlers that may register further hooks; plain handlers: exact LIFO order. False of the code when a handler itself pops hooks (C46_pop_in_handler_uses_freed, C46_pop_in_handler_recurses).
* **C47** (partial). Integer text exact and bounded for every int but INT_MIN (undefined). Address text exact (per family) and bounded for non-empty buffers. Rule export gives exactly the JSON object of the specification and stays in the buffer whenever that object fits; too-small buffers are reported and respected for rules without addresses only: findings C47_export_overruns(_by_one) show stores past the end otherwise. Other findings: zero-length buffer, long IPv4 address, unknown protocol number.
* **C48** (proved). All histories of calls whose insert actions do not fail (failing insert actions: C14_action_failure_breaks).
* **C49** (partial). Proved: exactly which texts are accepted (C49_accepted, C49_accepts_exactly): the JSON texts within the limits and such texts cut off in or after their last number or literal (Spec/JsonCut), each with exactly its events, for every chunking and callback; a cut off text is always the beginning of a JSON value; raw strings accepted iff well-formed UTF-8; independence of chunking; no faults; sticky errors. Partial because the property says only JSON texts are accepted, which the code refutes for the cut off ones (C49_finding_unclosed_accepted, C49_finding_truncated_literal).
* **C50** (proved). For every comparison function that is an order (the default one is proved to be the byte-lexicographic order) and every history of fewer than 2^32-1 calls. Nodes are modelled as trees with paths as zippers (no pointers). Finding: C50_clone_error_lost.
* **C51** (proved). Found rule, unknown trigger, and no-rule paths; memory for the target is available.
* **C52** (proved). Model/JsonNum.lean (integer classification, conversion, writing) with the parser of Model/JsonSax.lean; doubles are not modelled.
* **C53** (proved). json_dump_string for all write callbacks; read back through the parser model of C49.
* **C54** (partial). Model/ConfNum.lean: strto* with base 0 (ISO C, 64-bit long). Proved in full for 8/16/32-bit and signed 64-bit settings and for durations; unsigned 64-bit values wrap negative numbers (C54_unsigned_wraps, a finding), so that statement is partial. Findings: C54_duration_overread, C54_duration_overflow, C54_hex_byte_refused. convert_double (strtod) is not modelled.
* **C55** (proved). For every text, chunking, library and memory content; log of calls; documents without rules load the same.
* **C56** (partial). Event level: exact equivalence with the independent specification Spec/Config for every tree read in place. Text level: for texts not cut off in or after a number or literal (CutOff, Spec/JsonCut) and tokens read in place. Findings: truncated configurations accepted with the rule dropped, prefix-bits over-read, unknown names crash, documented lists refused.
* **C57** (partial). Proved for rules whose families are IPv4/IPv6/link/CAN with prefix (or IPv4 bitmask) addresses and plain labels (Reloadable). Missing: registered custom families, IPv6 bitmasks, local sockets, TCP rules without the tcplike flag, labels with quotes/backslashes/control characters — for which the findings show the claim false of the code (except custom families) — and tokens split over chunks.
* **C58** (partial). Model/JsonDom.lean (json_dom_process and friends over the SAX model). For the abort and use-last policies: exactly what is accepted and with which value (C58_exactly), including texts cut off (C49's finding). With use-first, repeated keys whose value is an array or an object are excluded: C58_ignored_object_is_merged, C58_ignored_object_replaces_root and C58_ignored_objects_undefined show the code wrong there. Numbers of 63 bytes or more that are not integers are refused (C58_long_number_refused). strtod is a parameter; allocation failure is not modelled.
* **C59** (partial). All values with UTF-8 strings, distinct keys and integers within their types; floating-point numbers under the hypothesis that snprintf writes a JSON number of at most 60 bytes without an upper-case E from which strtod recovers the value (Writable). Infinities and NaN are written as text that is not JSON (C59_infinity_is_not_json).
* **C60** (partial). Proved for allocators whose realloc(p, 0) does not release p, and otherwise for histories in which no removal empties the array; index + count must not wrap; json_value_fini must not fail. Each exception is a finding: C60_emptied_array_dangles (use after release with glibc), C60_removal_wraps, C60_failed_removal_destroys.
* **C61** (proved). Byte-level model of JSON_VALUE (inline and allocated). The types float and double are not modelled.
* **C62** (partial). Proved for paths whose bracketed parts hold decimal numbers below 2^64; C62_index_wraps and C62_brackets_misread show the claim false for the others.
* **C63** (partial). Answer characterised for every callback and event; that errors of the library let packets pass is proved. Partial because the deciding-rule theorems need handlers that only observe, and because a NULL local address or control block is dereferenced (C63_null_dereferenced) and a failed thread teardown drops the packet after the rules accepted it (C63_teardown_failure).
* **C64** (partial). The question is characterised bit by bit for every layer and event, and the deciding rule covers the traffic (C64_decided_by_covering_rule_partial). Partial: CLOSE_WAIT is not told (C64_close_wait_not_told), ICMPv6 is asked about as ICMP (C64_icmp6_is_icmp), a dual-stack address is shown as IPv4 (C64_dual_stack_shown_as_ip4); 'no better rule' needs the hypotheses of the lookup theorem C10.
* **C65** (partial). Proved for histories with observing handlers and configurations that leave the counting bits alone. Findings: an accept that is refused for another reason stays counted (C65_refused_is_counted); rules with an interface leak connections (C65_interface_rules_leak).
* **C66** (proved). Findings: one context's shutdown removes another's callbacks (C66_other_contexts_removed), re-entrant events are not filtered (C66_reentrant_unfiltered), a failed registration in the ICMP or TCP installer leaves the context's lock held (C33_finding_lwip_lock_kept).
* **C67** (partial). Key, counts, expiry and flags proved for every rule and table (C67_reinserted, C67_same_traffic); private data only if the settings put no padding in front (C67_finding_private_data_shifted); wildcards only without the one for the remote address (C67_finding_set_wildcard_moves_local). The time of penalty boxing is lost (C67_finding_boxed_for_good); expired rules are refused (C67_expired_refused).
* **C68** (partial). Counting fails: the first report is counted on neither rule (C68_finding_first_offence_uncounted). Failures leave the table alone unless handlers of the new rule fail or the queue of expiring rules is full (C14); when the lock or the event cannot be had the results gain whatever lay on the stack (C68_finding_uninitialised_results).
* **C69** (partial). Distinctness for fewer than 2^24-1 initialisations without a host identity, and for ever in nested use; C69_identities_repeat shows that the full claim is false beyond that.
* **C70** (partial). Findings: the deadline 'now' makes a contended lock call fail fatally; a late reader's context can be destroyed while it holds the lock (C31). The end of a context is under the obligations of C30-C32.
* **C71** (partial). Under the obligations of C30-C32 (the finding of C31, C70_finding_late_reader, shows the query wrong otherwise).
* **C72** (partial). Export: full for clients that empty the buffer when less than the longest rule is left; clients that retry after 'buffer too small' only for rules without addresses (C72_finding_export_overruns: the claim is false otherwise). Reload: for the rules C57 covers.
* **C73** (proved). For all tables and steps, on the list model of the cursor (the pointer-level list is C11/C12).
* **C74** (partial). Proved for requests with a power-of-two alignment up to 2^15 and sizes that do not overflow; overflow, other alignments, larger alignments and the 64-bit truncation in realloc are findings. The compiler's malloc, free, realloc are the honest-system hypotheses.
* **C75** (partial). Never early: proved. Taking in time and ending in time need a tick rate that divides 10^9 and a deadline within the range of the tick type; far deadlines, 16-bit ticks and the 64-bit clock are findings.
* **C76** (partial). Refusal of destruction: under the hypotheses of C30 on the history. Destruction of a released lock: histories without deadlines; with an expired promotion it is false (finding). A failing initialisation does not destroy its semaphores (finding).
* **C77** (partial). Proved: the text, the length, the bounds of the buffer, reading back of null, truth values, integers, plain strings and JSON trees, the refusals, the translation of the JSON library's codes. Not provable because the code does not do it (findings proved): strings are not escaped, a zero byte cuts a string, a JSON value does not tell the length needed. The fixed-point text of a floating-point number is snprintf's.
* **C78** (partial). Proved under conditions on the rule (address texts exist, flags have names, no IP or local bit-matching address; wildcard addresses only on standard output): the line, the behaviour under failing output; without conditions: references for rules. The rest is false of the code (findings proved): the star of a wildcard address goes to standard output, IP bit-matching rules cannot be written, a failing protocol output is not reported, an export that fails leaks a family reference, unnamed flags go to standard error.
* **C79** (proved). Histories of create, delete, flush, hold, release, set and clear. Findings: a deleted event stays in force (C79_finding_deleted_stays_in_force), and a later event of the same label is not the one in force (C79_finding_namesake).
* **C80** (partial). False of the code for registered success codes: the text of the error of the same number is returned, or a null pointer (C80_finding_success_text). Everything else in the statement is proved.
* **C81** (proved). The library's own check of a user-chosen enumeration size is not modelled. Limit: the bit for masks is not compared (C81_finding_masks_not_compared).
* **C82** (partial). Success characterised exactly, refusals leave nothing, shutdown keeps exactly what is held (given no cycle of references). The clause that a late failure leaves nothing is proved for builds without threads unless the table of values or a family table is refused (C82_init_failure_partial); otherwise it is false of the code: C82_finding_uninitialised (unwritten rule table read), C82_finding_threads_leak (with threads nothing is freed). A self-referring event survives shutdown (C82_finding_cycle_survives).
* **C83** (partial). Proved for every text, chunking, flag set, context and handler: dry runs leave everything alone, a load on a draft that fails changes nothing, the committed contents, the flush-first rule and the feed discipline (C83_dry_run, _all_or_nothing, _dry_run_feeds, _draft, _commit_contents, _feeding, _init_refuses, _oneshot, _flush_first, _in_place). Handler runs at a commit are proved without NO_FLUSH (C83_commit_handlers_partial). The rest is false of the code and stated as findings: a load in place that fails leaves half of the text loaded; events loaded with a configuration of their own stay muted after a commit; with NO_FLUSH the new rules' insert handlers never run and the kept rules' delete handlers do; a commit loses the default policy, default event and fallthrough rule; a handler that fails makes a load fail after the commit; a commit enables actions the user had inhibited; a context with a deleted event that a rule or the default still refers to cannot be cloned, and the attempt runs delete handlers of rules that stay (C83_finding_clone_fails; the two claims about handlers are for contexts without that).
* **C84** (partial). Proved for loads in place and for LOAD_THEN_COMMIT, without NO_FLUSH (C84_commit_partial) and with it (C84_add_commit_partial, if no rule in force is marked as to be deleted), for texts as in C56 (strict JSON, tokens read in place, not cut off in a number or literal) and handlers that leave flags and keys of rules alone; C84_rules, C84_no_twins and C84_found hold without the restriction on texts. C84_lived: the contexts supposed are those a program makes from an empty one by successful calls and loads. Findings: a document that lowers the limit on rules that expire is refused although the limit is lowered; a limit set where there was none is exceeded; with NO_FLUSH and LOAD_THEN_COMMIT a rule brought back by the document is marked as to be deleted again by the commit, with an expiry but outside the queue.
* **C85** (partial). Proved for loads in place and committed loads, any chunking and buffer sizes, every context in the invariant of C84: C85_restored_partial, C85_same_context_partial, C85_committed_partial. Missing: rules the export does not describe completely (Savable: prefix or mask under an address wildcard, wildcard for the parent event; settings that change flags), more than a table can hold (Holdable), handlers that fail or change rules. The full claim is false of the code: C85_finding_export_refused (an export is refused with ITEM_ALREADY_PRESENT and a rule is lost), C85_finding_expiry_lost (the time a rule expires is not exported).
* **C86** (partial). Proved for loads in place (C86_document_partial) and committed loads without NO_FLUSH (C86_commit_partial), for every document and every fully known packet, that a dispatch ends as the rules in force say (C86_decided_partial, also for contexts not just loaded, as long as nothing has been charged to the rules), that the rules are those of the document, and that the search ends. Missing: rules for any family, address masks, prefixes that are not a multiple of four bits or longer than the packet's addresses, and rules equal to the packet in every field, for which the search is not right (C09, C10); configurations that add verdicts by themselves; post actions for traffic without a rule; interfering handlers. Finding: with one catch-all rule for each direction, the second is never found by a packet, which is accepted by default although the document rejects it (C86_any_family_missed).
* **C87** (proved). Over whole histories. Findings: a ban is forgotten when the rule expires (C87_ban_lost_by_expiry); a ban pronounced while the clock fails never ends (C87_blind_ban).
* **C88** (partial). The full claim is false of the code (findings): unlocked value getters read, and unlocked record getters count references to, freed objects; the default-event getter follows NULL; releasing may follow a NULL parent table. Proved for the calls that count a reference under the lock without any condition (C88_references_safe), and for all calls if the caller holds the lock around those.
* **C89** (partial). C89_rules_left holds in full for handlers that only observe. The rest is for rules of the ordinary kind (one family, prefixes of whole nibbles, no masks: C86, the code misses or mis-orders others), rules that never expire (an expiring rule takes its ban with it: C87_ban_lost_by_expiry), reports without connections or commendations (C87 covers these for one rule), and configurations that give no verdicts themselves.
* **C90** (partial). The ledger, the limit and the refusals over the limit hold for limits up to 65535 (the counter has 16 bits: C18_no_limit_above_65535) and handlers that only observe. C90_rejected_iff and the theorems about loaded configurations are for reports of connections only and rules of the ordinary kind, as in C89. Finding C90_rejected_is_counted: a connection rejected for another reason than the limit (a ban, the default policy) is counted although it never exists, so it uses up room until somebody reports its end.
* **C91** (partial). Proved for documents as in C84, C86, C89 and C90. A committed load works after any traffic; edits and loads in place suppose that the traffic has left the purge queue in order, which traffic about the rule next to expire need not do (C16_hit_breaks_order); if no rule expires it does (C91_lasting). LOAD_THEN_COMMIT with NO_FLUSH is in the histories if the table of bitmask families is within its size (BmFits) and no rule is marked as to be deleted. Refusals: C91_refused_reload holds in full for failures before the commit (C83_finding_error_after_commit for those after it). Findings: loading the configuration in force once more ends every ban (C91_reload_ends_bans) and forgets open connections, so that more than the limit are open (C91_reload_forgets_connections).
* **C92** (partial). Proved for clock readings from the epoch on and delays within the range of the library's times. Findings (theorems): a time before the epoch gives negative nanoseconds (C92_before_epoch); a failing host conversion is reported as success and the deadline is indeterminate (C92_failure_ignored); a delay meaning for ever overflows (C92_overflow). So the full statement is false of the code for times before the epoch and for failing conversions.
* **C93** (partial). Proved but for the loader's messages. Findings (theorems): the code for a parser never started (-24) has no text (C93_not_inited); the loader asks json_error_str, which has no text for the value builder's own code nor for codes of its own callback (C93_loader_texts).
* **C94** (proved). Allocation succeeds in the model (DESIGN.md), so out of memory is not among the codes.

## Trusted base

* Lean 4.33.0's kernel.  No axioms are added; every `Cnn_…` theorem depends on at most `propext`, `Classical.choice` and
  `Quot.sound` (checked with `#print axioms` over all theorems of `Verif.Props`).  No `native_decide`, `bv_decide`, `implemented_by`,
  `extern` or `unsafe`.
* The fidelity of the model to the C code, by reading: the code was neither built nor run.
* The build that is modelled: the default one with `WOLFSENTRY_THREADSAFE`, `WOLFSENTRY_PROTOCOL_NAMES`,
  `WOLFSENTRY_ADDR_BITMASK_MATCHING`, `WOLFSENTRY_HAVE_JSON_DOM`, on an LP64 POSIX system with glibc.
* The meaning given to the environment: ISO C integer semantics; `strto*`, `inet_pton`, `inet_ntop`, `getprotobyname_r`,
  `getservbyname_r` as parameters or as their standard text; a semaphore-protected section is one atomic step; the
  compare-and-swap loops are sequentially consistent.

## What is modelled

| source | modelled |
|---|---|
| src/routes.c | comparison of keys, lookup, init, insert, delete, purge, stale-purge, flags and meta-data accessors, export and creation from exports (byte level), dispatch (all three entry points), default policy, bulk insert actions, address, JSON and line-of-text rendering, whole-table JSON export, iteration, table clone and exchange, the default event |
| src/events.c, src/actions.c, src/action_builtins.c | labels, creation, deletion, configuration, aux events, action lists, dispatch of actions, the tracking action |
| src/kv.c | all stores, getters, deletion, validator, mutability, type, iteration, rendering as text |
| src/addr_families.c | registration, lookup in both tables, built-in names, drop |
| src/wolfsentry_internal.c | tables, IDs, cursors, iteration |
| src/wolfsentry_ll.h | pointer-level lists |
| src/wolfsentry_util.c | lock (also creation and destruction), the built-in allocators, FreeRTOS semaphore waits and clock, thread contexts (identities, deadlines, read-only mark), lock queries, error codes, their texts, names of result bits, the check of build settings, time, base64, context init/shutdown/clone/exchange/free, cleanup hooks, object checkout/release, event configuration |
| src/json/centijson_sax.c | the parser, numbers, writing of numbers and strings (not doubles) |
| src/json/centijson_value.c | the dictionary (red-black tree), its clone, arrays, strings, integers, truth values, paths |
| src/json/centijson_dom.c | parsing into values, writing values |
| src/lwip/packet_filter_glue.c | the seven callbacks, their installation and removal (all layers compiled in) |
| lwip/LWIP_PACKET_FILTER_API.patch | the tests before a callback and the arguments it is called with |
| src/json/load_config.c | number conversion, all clause handlers, the callback, init/feed/fini, the draft clone, commit and flush (C83); locking by C29/C31's models only |

## What is not modelled

* Memory allocation failures, except where a definition has an outcome for them (insertion, clone, dictionary, making a context).
* lwIP itself, the example programs, platform layers other than the FreeRTOS waits and
  clock (the lock itself is modelled over POSIX semaphores), the Darwin semaphores; debug and stack-trace facilities; conversions between `double` and text.
* Weak memory: the counters and the lock are interleaving models.
* Time arithmetic in the rule operations is on unbounded integers (overflow of the 64-bit sums is a finding of C35).
