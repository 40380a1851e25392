# wolfSentry formal model (Lean 4): design

## Layout and method

* `lean/Verif/Model/*.lean` — the model: total functions over lists, naturals, integers, bit vectors and plain structures, one
  file per C translation unit or concern.  Every definition cites the file and lines in `/repo` it models, and says where it
  simplifies.  Undefined behaviour of C is a result of its own (`ub`), so that "is never undefined" can be stated.
* `lean/Verif/Spec/*.lean` — small specifications, independent of the functions of the model: they use its data types only.
* `lean/Verif/Props/*.lean` — the claims: theorems named `Cnn_…` after the property they belong to, each followed by an
  `example` in which a concrete, non-trivial case meets its hypotheses.
* `lean/Verif/Proof/*.lean` — lemmas.

Concurrent code (counters, the readers/writer lock) is a transition system with any number of threads, and the theorems quantify
over all schedules.  State is quantified over all histories of calls (inductive `Reach` predicates), user-supplied handlers,
resolvers, clocks and comparison functions over all functions.

Where the code violates a property, the negation is proved on a concrete witness (`…_finding_…`, `…_not_…`, `…_broken`, …), and
what does hold is proved under extra hypotheses, with the suffix `_partial`.  The property then stays "partial".

The theorems are tested against wrong programs (`seeded/LOG.jsonl`): a realistic bug is put into the model in a scratch copy, the
project is rebuilt, and if no theorem fails, one is added.

## Per-property plan and status
