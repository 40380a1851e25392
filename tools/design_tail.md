## Trusted base

* Lean 4.33.0's kernel.  No axioms are added; every `Cnn_…` theorem depends on at most `propext`, `Classical.choice` and
  `Quot.sound` (checked with `#print axioms` over all theorems of `Verif.Props`).  No `native_decide`, `bv_decide`, `implemented_by`,
  `extern` or `unsafe`.
* The fidelity of the model to the C code, by reading: the code was neither built nor run.
* The build that is modelled: the default one with `WOLFSENTRY_THREADSAFE`, `WOLFSENTRY_PROTOCOL_NAMES`,
  `WOLFSENTRY_ADDR_BITMASK_MATCHING`, `WOLFSENTRY_HAVE_JSON_DOM`, on an LP64 POSIX system with glibc.
* The meaning given to the environment: ISO C integer semantics; `strto*`, `inet_pton`, `inet_ntop`, `getprotobyname_r`,
  `getservbyname_r` as parameters or as their standard text; a semaphore-protected section is one atomic step; the
  compare-and-swap loops are sequentially consistent.

## What is modelled

| source | modelled |
|---|---|
| src/routes.c | comparison of keys, lookup, init, insert, delete, purge, stale-purge, flags and meta-data accessors, export and creation from exports (byte level), dispatch (all three entry points), default policy, bulk insert actions, address, JSON and line-of-text rendering, whole-table JSON export, iteration, table clone and exchange, the default event |
| src/events.c, src/actions.c, src/action_builtins.c | labels, creation, deletion, configuration, aux events, action lists, dispatch of actions, the tracking action |
| src/kv.c | all stores, getters, deletion, validator, mutability, type, iteration, rendering as text |
| src/addr_families.c | registration, lookup in both tables, built-in names, drop |
| src/wolfsentry_internal.c | tables, IDs, cursors, iteration |
| src/wolfsentry_ll.h | pointer-level lists |
| src/wolfsentry_util.c | lock (also creation and destruction), the built-in allocators, FreeRTOS semaphore waits and clock, thread contexts (identities, deadlines, read-only mark), lock queries, error codes, their texts, names of result bits, the check of build settings, time, base64, context init/shutdown/clone/exchange/free, cleanup hooks, object checkout/release, event configuration |
| src/json/centijson_sax.c | the parser, numbers, writing of numbers and strings (not doubles) |
| src/json/centijson_value.c | the dictionary (red-black tree), its clone, arrays, strings, integers, truth values, paths |
| src/json/centijson_dom.c | parsing into values, writing values |
| src/lwip/packet_filter_glue.c | the seven callbacks, their installation and removal (all layers compiled in) |
| lwip/LWIP_PACKET_FILTER_API.patch | the tests before a callback and the arguments it is called with |
| src/json/load_config.c | number conversion, all clause handlers, the callback, init/feed/fini, the draft clone, commit and flush (C83); locking by C29/C31's models only |

## What is not modelled

* Memory allocation failures, except where a definition has an outcome for them (insertion, clone, dictionary, making a context).
* lwIP itself, the example programs, platform layers other than the FreeRTOS waits and
  clock (the lock itself is modelled over POSIX semaphores), the Darwin semaphores; debug and stack-trace facilities; conversions between `double` and text.
* Weak memory: the counters and the lock are interleaving models.
* Time arithmetic in the rule operations is on unbounded integers (overflow of the 64-bit sums is a finding of C35).
