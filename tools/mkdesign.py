#!/usr/bin/env python3
"""Writes DESIGN.md from the table below, properties.jsonl and MANIFEST.json."""
import json
P = {}
for l in open('/verif/properties.jsonl'):
    p = json.loads(l); P[p['id']] = p
M = {c['property']: c for c in json.load(open('/verif/MANIFEST.json'))['claims']}
# id -> (model modules, specification, proof method)
T = {
'C01': ('RouteKey', 'Spec/RouteKey', 'comparison laws of each field, lexicographic composition'),
'C02': ('Table, RouteTable', 'sortedness stated with the comparators', 'invariant over all operation lists, for every lawful comparator; comparators of the six tables proved lawful'),
'C03': ('Table', 'finite-map laws', 'refinement of the sorted list to a map, over all histories'),
'C04': ('Table', '-', 'invariant over all histories with a wrapping 32-bit counter'),
'C05': ('DList', 'Spec/DList (a chain of cells represents a list)', 'representation predicate on a heap, one theorem per primitive; negations for stale links'),
'C06': ('RouteKey', 'Spec/RouteKey (bits of an address)', 'bit-level reasoning; exact set of compared bits for every length'),
'C07': ('RouteKey', 'Spec/RouteKey', 'bit-level reasoning'),
'C08': ('RouteKey', 'Spec/RouteKey (field-wise match)', 'case analysis over wildcards and direction'),
'C09': ('RouteTable', 'Spec/Lookup (Matches)', 'invariant of the scan'),
'C10': ('RouteTable', 'Spec/Lookup', 'invariant of the scan over a sorted table; refutations on concrete tables'),
'C11': ('RouteTable', 'Spec/Lookup', 'sortedness and scan'),
'C12': ('RouteKey', 'Spec/Lookup (score)', 'case analysis; refutation on a concrete pair'),
'C13': ('RouteOps', 'Spec/RouteOps (CreateOK)', 'exact acceptance condition by case analysis, invariant over histories of tables'),
'C14': ('RouteOps', 'Spec/RouteOps', 'case analysis of every exit of the insertion; refutations for eviction and failing actions'),
'C15': ('RouteOps, RouteHistory', 'Spec/RouteOps', 'invariant over histories'),
'C16': ('RouteOps, RouteHistory', 'Spec/RouteOps', 'invariant of the purge queue over histories; induction on the queue'),
'C17': ('RouteOps', 'Spec/RouteOps', 'counting'),
'C18': ('ConnCount, Atomic', 'Spec/Atomic', 'inductive invariant over all interleavings of any number of threads'),
'C19': ('Atomic, Dispatch', 'Spec/Atomic', 'inductive invariant over all interleavings'),
'C20': ('Dispatch', 'Spec/Dispatch', 'case analysis, arbitrary handlers'),
'C21': ('Dispatch', 'Spec/Dispatch', 'case analysis'),
'C22': ('Dispatch', 'Spec/Dispatch', 'case analysis'),
'C23': ('Dispatch', 'Spec/Dispatch', 'case analysis'),
'C24': ('Actions', 'Spec/Actions', 'induction on the list, arbitrary handlers'),
'C25': ('ActionList, DList', 'Spec/Actions (list editing)', 'refinement of the linked cells to a list'),
'C26': ('Dispatch, RouteOps', 'Spec/RouteOps', 'state machine of the two marks; refutations'),
'C27': ('Events', 'Spec/Events', 'decision logic, invariant over histories'),
'C28': ('RouteOps', '-', 'bit-vector extensionality'),
'C29': ('RefCount', 'Spec/RefCount', 'invariant (count = references held) over all histories'),
'C30': ('RwLock', 'Spec/RwLock', 'inductive invariant over all schedules of any number of threads; refutations with deadlines'),
'C31': ('RwLock', 'Spec/RwLock', 'as C30'),
'C32': ('RwLock', 'Spec/RwLock', 'as C30'),
'C33': ('LockBal', 'Spec/LockBal', 'effect system over the control-flow skeletons of 104 functions: a verified static analysis, run by the kernel, whose soundness is proved for every run'),
'C34': ('ErrCode', '-', 'arithmetic'),
'C35': ('Time', '-', 'arithmetic'),
'C36': ('Base64', 'Spec/Base64 (RFC 4648 encoder)', 'induction on the text'),
'C37': ('Kv', 'Spec/Kv (typed map)', 'refinement over all histories'),
'C38': ('Kv', 'Spec/Kv', 'invariant over all histories'),
'C39': ('Kv', 'Spec/Kv', 'invariant over all histories'),
'C40': ('AddrFam', 'Spec/AddrFam', 'invariant over all histories'),
'C41': ('Events', 'Spec/Events', 'decision logic'),
'C42': ('EventGraph', '-', 'invariant over all histories'),
'C43': ('Events', 'Spec/Events', 'invariant over all histories'),
'C44': ('Context', 'Spec/Context', 'algebraic laws'),
'C45': ('Clone', 'Spec/Clone (copy up to renaming of objects)', 'simulation between source and clone, by induction on the tables'),
'C46': ('Cleanup', 'Spec/Cleanup', 'induction on the hook list'),
'C47': ('Format', 'Spec/Format', 'induction; exact text'),
'C48': ('RouteOps, RouteTable', 'counting over the table', 'invariant over histories'),
'C49': ('JsonSax', 'Spec/JsonSax (RFC 8259 grammar as inductive relations), Spec/JsonCut (texts cut off)', 'simulation between grammar derivations and the automaton; chunk independence by a per-byte step'),
'C50': ('RbDict', 'Spec/RbDict (map; black height)', 'refinement and invariants over zipper paths'),
'C51': ('Dispatch', 'Spec/Dispatch', 'case analysis'),
'C52': ('JsonNum, JsonSax', 'Spec/JsonNum (value of a numeral)', 'induction on digits'),
'C53': ('JsonNum, JsonSax', 'Spec/JsonNum', 'induction on the text, with C49'),
'C54': ('ConfNum', 'Spec/ConfNum', 'induction on digits, case analysis'),
'C55': ('Config, ConfigText', 'Spec/Config', 'simulation between the two loads'),
'C56': ('Config, ConfigText', 'Spec/Config (meaning of a document tree)', 'equivalence of the event automaton with the tree semantics, then C49 for texts'),
'C57': ('Format, Config, ConfigText, RouteOps', 'Spec/RoundTrip', 'the text of C47 is a derivation of the grammar of C49; its meaning by C56'),
'C58': ('JsonDom over JsonSax', 'Spec/JsonDom (trees, Reads)', 'the events of a document drive the builder: mutual induction over the tree; converse from uniqueness of the document'),
'C59': ('JsonDom, Format', 'Spec/JsonDom (Writable, Same)', 'the text written is a Document of a tree that Reads to the value: mutual induction; then C58'),
'C60': ('JsonArray', 'Spec/JsonArray (Step, Run on lists)', 'representation invariant over all histories, undefined behaviour explicit; refutations'),
'C61': ('JsonValue', 'Spec/JsonValue (InRange)', 'induction on the variable-length encoding; modular arithmetic'),
'C62': ('JsonValue', 'Spec/JsonValue (Item, Walk)', 'induction on the tokens; refutations'),
'C63': ('Lwip, Dispatch', 'Spec/Lwip (answer, RuleRejects, RuleResets)', 'the callback reduced to a dispatch, then the dispatch theorems of C19-C22'),
'C64': ('Lwip, Dispatch', 'Spec/Lwip (AskedBit, ToldBit, questionOf)', 'case analysis over layers and events; lookup theorems'),
'C65': ('Lwip, Dispatch', 'Spec/Lwip (History, connectionsAfter)', 'frame theorem of dispatch (other rules keep their counts), induction over the history'),
'C66': ('Lwip (installation)', 'Spec/Lwip (Wanted, Reaches, Silent, Life)', 'invariant over all histories of installations and shutdowns'),
'C67': ('Exports (byte-level data area), RouteOps', 'Spec/Exports (StoredAs, Tidy), SameKey, RuleMatches', 'byte-level lemmas on the data area, then the insertion theorem of C14'),
'C68': ('Exports (trackPeer)', 'Spec/Exports, RuleMatches, Charged', 'the insertion theorem behind C67 applied to the export the action builds'),
'C69': ('Thread (atomic steps)', 'Spec/Thread (inUse, Distinct, Reach, Nested)', 'invariant over interleavings; finding by an explicit run of 2^24 rounds, proved by induction'),
'C70': ('Thread (contexts), RwLock', 'Spec/Thread (Proper, SameButDeadline), C30 holds', 'case analysis; lock invariant of C30-C32'),
'C71': ('Thread (queries, read-only)', 'Spec/Thread (ReachRo), C30 holds', 'lock invariant; read-only runs refine ordinary runs'),
'C72': ('Dump, Format, ConfLoad', 'Spec/Dump (wholeText, Session, Completed, ReinsertsAll)', 'invariant of export sessions; grammar of the whole text; induction over the rules with C57'),
'C73': ('Dump (cursors)', 'list positions in the statement', 'induction over the steps'),
'C74': ('Alloc', 'Alloc (areas in callers\' hands, the system\'s honest answers)', 'invariant relating areas to live blocks; modular arithmetic on addresses'),
'C75': ('FreeRtos', 'moments in nanoseconds in the statements', 'exact integer arithmetic on ticks and nanoseconds'),
'C76': ('LockLife, RwLock', 'RwLock (holdings from the log of calls)', 'invariant of C30 and an invariant on left-over counts, over all interleavings'),
    'C77': ('`KvRender` (`render`, `writer`, `snprintf`, `translate`)', '`Spec/KvRender` (`ValueText`, `Holds`, `SameFrom`, `codeTable`), `Spec/JsonSax`, `Spec/JsonDom`', 'The memory behind the buffer is part of the state; the JSON writer by induction over the pieces of C59; decimal text by strong induction; reading back by C59, plain strings by the grammar; findings by the parser acceptance theorem of C49.'),
    'C78': ('`RuleText` (`lineOps`, `addressOps`, `flagsOps`, `endpointOps`, `familyOps`, `run`)', '`Spec/RuleText` (`AddrIs`, `EndAddrIs`, `flagsText`, `line`, `textOn`)', 'A call is a list of output steps run against an oracle of failing outputs; runs are analysed by induction over the steps (complete, or a beginning and an error; references kept), the texts by induction over address bytes and flag bits.'),
    'C79': ('`DefaultEvent` (`create`, `drop`, `delete`, `setDefault`, `clearDefault`, `getDefault`)', '`Spec/DefaultEvent` (`Record`, `inForce`, `Known`, `Answer`)', 'Invariant over histories: every count is the number of places that hold the object (table, default, others); agreement of the state with the record of successful calls, by induction over the history.'),
    'C80': ('`ResultText` (`setSource`, `setError`, `sourceString`, `errorString`, `errorName`, `resByFlag`)', '`Spec/ResultText` (`nameOf`, `codeText`, `sourceText`, `UserError`, …)', 'Agreement of the arrays with the history of registrations, by induction over the history; C34 for encoded results; the finite tables by kernel evaluation over every entry.'),
    'C81': ('`ResultText.compatible`', '`Spec/ResultText` (`layoutBits`, `knownBits`)', 'Bit by bit.'),
    'C82': ('`ContextLife` (`init`, `contextAlloc`, `checkHpi`, `shutdown`), on `RefCount`', '`Spec/ContextLife` (`Acceptable`, `whole`, `demand`, `Settled`, `Kept`, `NoCycle`)', 'Cases over the first refused allocation; shutdown by the reference invariant of C29 and a measure on pending drops.'),
    'C83': ('`LoadTx` (`initLoad`, `feedLoad`, `finiLoad`, `oneshot`, `commit`, `clone`, `exchange`, `contextFlush`, `libCall`), on `LoadConfig` and the table model', '`Spec/LoadTx` (`use`, `Feeding`, `DraftOf`, `FlushedTo`, `WithInhibit`, `DeleteDue`, `InsertDue`, `RunsOf`, `loaded`)', 'The session is shown to depend on the context only through the parser callbacks; invariants over every library call a load can make (inhibited, muted, keeps the draft apart), then cases on the flags; handler runs by induction over the table.'),
    'C84': ('`LoadTx` (`libCall` and everything below it, `clone`, `commit`), on `LoadConfig` and the table model', '`Spec/Loaded` (`View`, `Seen`, `Does`, `Done`, `AskedFor`, `MadeRoom`, `Entered`, `AsksFor`, `ruleObjects`, `Mild`, `Issues`)', 'The meaning of a document (C56) is turned into a list of calls, one of them per rule object; each call that succeeds is shown to do to the view what `Does` says, with an invariant on contexts (`Good`: table in order, purge queue in order, rules linked to events of the table, IDs given out) that every library call, flush, clone and commit keeps; the statements about rules are by induction on the list of calls.'),
    'C85': ('none new: the exporter (`Format`, `Dump`), parser (`JsonSax`), loader (`LoadConfig`, `LoadTx`) and table models joined', '`Spec/Restore` (`Restored`, `Bare`, `Settled`, `Works`, `Holdable`), `View`/`Seen`/`Twin` of `Spec/Loaded`', 'The calls an export turns into (C72, C57) are made one by one on the context with its rules removed: each insert succeeds, since the rule was in a table in order (`Good`, C84), and enters a rule with the same key, by induction on the exported rules; both tables are sorted by the same order, so the rules are at the same places. Findings by evaluating the model.'),
    'C86': ('none new: loader (`LoadConfig`, `LoadTx`), table (`RouteOps`), search (`RouteTable`, `RouteLookup`) and dispatch (`Dispatch`) models joined', '`Spec/Firewall` (`Packet`, `Covers`, `First`, `Uncovered`, `Answers`, `Default`, `Decides`), `View` of `Spec/Loaded`', 'Along the calls a document stands for (C84) every rule stays tidy (C13) and uncharged, by induction on the calls; in a context in order the search returns a covering rule of the best priority or, if none covers, nothing (C09, C10, restated over what is in force); the verdict then follows from C23. Findings by evaluating the model.'),
    'C87': ('Model/Dispatch (dispatch1, dispatchById, countHit, unbox, judge)', 'Spec/Offender (Runs, Visit, tally, Guilty, Banned, StillOn, PlainReject)', 'one call: verdict in terms of the record (from the C20-C23 case analysis) and frame for the other rules; then induction over the history'),
    'C88': ('Model/ObjRace (exec, start, Step, Reach)', 'Spec/ObjRace (touched, Fault, LocksGetters, LocksReleases, stored)', 'inductive invariant over all interleavings: every reference has an owner (table, default event, a thread), the count is the number of owners, and each thread at each access has an owner or the lock; findings are concrete schedules checked by the kernel'),
    'C89': ('DispEnv.dispatch1, dispatchById, lookup, use (load in place and LOAD_THEN_COMMIT)', 'Spec/OverTime (Same, Left, Sole, Watched, strikes, AsksAbout), Spec/Offender, Spec/Firewall, Spec/Loaded', 'an invariant of dispatch histories (Aged: the table differs from the loaded one by expired rules and by ban, hit and time marks only) carries C86 (which rule is found) to every later state; C87 (one rule over a history) then counts the offences; document_facts/commit_facts (C84, C86) give the invariant after a load'),
    'C90': ('DispEnv.dispatch1, dispatchById, lookup, use (load in place and LOAD_THEN_COMMIT)', 'Spec/Connections (Opens, Closes, ledger, opened, closed, held, Peaceful), Spec/Offender, Spec/OverTime', 'one visit moves the count as the ledger does (judged_enter); induction over histories (con_run); ledger_balance shows the ledger is the number of open connections while reports stay within the limit; C89 says which rule answers after a load'),
    'C91': ('use, libCall, DispEnv.dispatch1, dispatchById', 'Spec/Loaded (view), Props/Loaded (startOnClone, startInPlace), Props/Service (Served, Orderly, Lasting)', 'the invariant of dispatch histories (Aged: C89, extended by the purge queue and the limits) gives the invariant of C84 (Good) back after traffic; induction over service histories (Served); commit_facts/document_facts (C84, C86) with a start that does not mention the traffic; C83 for refused loads'),
    'C92': ('Callbacks, builtinGet, nowPlusDelta, toTimespec, deadline (Model/Deadline), toEpoch, fromEpoch (Model/Time)', 'Spec/Deadline (Normal, nanos, Reading)', 'integer division bounds; the host callbacks are a record, so the one-step/two-step equation holds for all of them; round trip by C35'),
    'C93': ('errorStr, domErrorStr, typeStr (Model/JsonText); Sax.parse, Dom.parse', 'Spec/JsonText (meaning, Own, typeName, typeNumber)', 'case analysis of the tables; an invariant of the parser over all chunks (Proof/JsonErr): whatever holds of 0, of the codes it raises and of the callback codes holds of the code it returns'),
    'C94': ('Sax.parse, feed, fini (Model/JsonSax)', 'the statement itself', 'an invariant over all chunks: inside a string the substate is one of those the string automaton knows, and the dispatcher is not asked for the main automaton (Proof/JsonNever)'),
}
exec(open('/verif/tools/design_extra.py').read()) if __import__('os').path.exists('/verif/tools/design_extra.py') else None
out = [open('/verif/tools/design_head.md').read().rstrip(), '']
out += ['| id | property | model (lean/Verif/Model) | specification | proof | status |', '|---|---|---|---|---|---|']
for i in sorted(P):
    m, s, t = T[i]
    out.append(f"| {i} | {P[i]['title']} | {m} | {s} | {t} | {M[i]['status'] if i in M else 'planned'} |")
out += ['', '## What each claim covers, and what is missing', '']
for i in sorted(P):
    if i in M: out.append(f"* **{i}** ({M[i]['status']}). {M[i]['note']}")
out += ['', open('/verif/tools/design_tail.md').read().rstrip(), '']
open('/verif/DESIGN.md', 'w').write('\n'.join(out))
