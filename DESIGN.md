# Formal model of qjebbs/go-sqlf in Lean 4

## Layout

| path | content |
|---|---|
| `lean/Verif/Model/GoStr.lean` | Go strings (bytes), UTF-8 decoding, white space, `strings`/`strconv` helpers |
| `lean/Verif/Model/Syntax.lean` | package `syntax`: lexer, scanner, parser |
| `lean/Verif/Model/Val.lean` | argument values, Go `==`/hashability, the two argument stores |
| `lean/Verif/Model/Types.lean` | errors, panics, fragments, builders, user programs, contexts, query builders, state |
| `lean/Verif/Model/Util.lean` | package `util`: ArgsFlatted, Interpolate, Scan, ScanRow, Count |
| `lean/Verif/Model/Funcs.lean` | FuncMap registration and lookup |
| `lean/Verif/Model/Sqlb.lean` | package `sqlb`: builder calls, dependency analysis |
| `lean/Verif/Model/Eval.lean` | building: clauses, functions, `#join`, fragments, user code, query builders |
| `lean/Verif/Model/Properties.lean` | lists of properties as functions of a context |
| `lean/Verif/Model/Scan.lean` | ScanBuilder, CountBuilder: what is sent to the database |
| `lean/Verif/Model/Position.lean` | lexer, scanner and parser again, with offsets, lines and columns |
| `lean/Verif/Model/Memory.lean` | fragments as objects behind pointers, with slices that may share arrays |
| `lean/Verif/Model/Threads.lean` | building again, as goroutines that stop at every access to a query builder; schedules |
| `lean/Verif/Model/Jobs.lean` | the methods of query builders as steps of goroutines; programs of builds and calls |
| `lean/Verif/Model/JoinCache.lean` | the cached result of the `#join` compatibility test |
| `lean/Verif/Model/Kept.lean` | a query builder whose columns, unions and dependencies are slices |
| `lean/Verif/Model/Dest.lean` | ScanRow and Scan with the slices and arrays of the caller |
| `lean/Verif/Model/Taken.lean` | argument stores with slices, and the lists taken from them |
| `lean/Verif/Model/Flat.lean` | ArgsFlatted with slices |
| `lean/Verif/Model/UsedFlags.lean` | lists of properties with their flags of use |
| `lean/Verif/Model/NilContext.lean` | building with a nil context |
| `lean/Verif/Model/Refused.lean` | ContextWithFuncs with the context it returns beside an error |
| `lean/Verif/Model/SharedContext.lean` | CommitArg of one context, as steps of goroutines |
| `lean/Verif/Spec/*.lean` | small specifications used in theorem statements |
| `lean/Verif/Proofs/*.lean` | helper lemmas |
| `lean/Verif/Props/*.lean` | the property theorems, each with a non-vacuity `example` |
| `lean/Verif/Conformance.lean` | the repository's own test cases replayed on the model (tests, not proofs) |
| `lean/Verif/KernelRfl.lean` | tactic `kernel_rfl` for concrete witnesses (kernel-checked `Eq.refl`) |

`properties.jsonl` lists the properties, `MANIFEST.json` maps them to theorem names,
`seeded/LOG.jsonl` records the mutation experiments: `seeded/gen.py` writes the wrong programs to
`seeded/mutants.json`, and `tools/mutate.py` builds each of them in a scratch copy and logs which
theorems fail.
`tools/quick.py` runs the same wrong programs, but stops at the first theorem that fails.
`tools/automut.py` makes random single-token edits of the model (operators, constants, swapped branches,
dropped terms) and logs in `seeded/AUTO.jsonl` the first theorem that fails for each of them. It stops at
the first failure, so what it reports as survived is built again in full before anything is concluded.

## How the code is modelled

* A Go `string` is `List UInt8` (any bytes).  UTF-8 decoding is modelled exactly.
* `syntax`: lexer state = current token text, rest of input, end flag.  Scan functions and
  parser functions one by one.  Loops carry fuel; C05 proves that it never runs out.
* Argument values are a type `Val` with Go's `==` and hashability; a Dollar commit of an
  unhashable value is a panic (`none`).
* Evaluation is a function `St → Out α × St`; `Out` = ok, error, panic, out of fuel; the state
  survives errors and panics, as in Go.  `St` holds the argument store of the root context, the
  `used` flags of the current fragment context, the query builders in memory, the debug log.
* User code (custom `FragmentBuilder`s and preprocessing functions) is an arbitrary *program*
  over the exported context API (`Prog`: commit an argument, read the arguments, build another
  builder with the context or with added functions, return, fail, panic).  Theorems about
  "every builder" quantify over all such programs.
* Mutual recursion through interfaces is open recursion tied by `run : Nat → …`.  The fuel is
  the nesting depth (and the bound of the `#join` loop).  Fuel monotonicity is proved: a result
  other than "out of fuel" does not depend on the fuel; C18 gives sufficient fuel for trees
  without user code.
* `sqlb.QueryBuilder`: `*fromTable` pointers are indices into a cell array, so that the in-place
  replacement `*target = *table` is visible through both `tables` and `tablesDict`.

## Not modelled

* Error message texts other than those of the errors that a query builder collects (errors are
  structured values; `errors.Is(·, ErrInvalidIndex)` is modelled).  Positions are modelled in Model/Position.lean only; the positions in the errors of
  build.go and util/interpolate.go are those of the expressions there.
* The cache `funcInfo.joinTested`/`joinError`, except in Model/JoinCache.lean: elsewhere the `#join` compatibility test is
  repeated.  For functions that refer to no query builder C113 shows that this makes no difference.
* Concurrency: goroutines that call `BuildQuery` (Model/Threads.lean) and the methods of query builders
  (Model/Jobs.lean) are modelled with sequentially consistent memory and the query builders as the shared memory (fragments are values
  there: no build writes to one, but for the fragments inside query builders).  Not modelled: weak
  memory (C90 says where there is a race); of one Context used by several goroutines, all but calls of `CommitArg` (Model/SharedContext.lean, C118).  All other properties are about sequential programs.
* Memory aliasing in builds: the models of building, and all properties but C85 and C86, treat
  fragments as values.  Model/Memory.lean has the pointers and slices behind them (for the calls
  that make and change fragments and query builders), and C86 shows when the two agree.  Slices
  that are given to calls of query builders (`Select(columns...)`) and to `ScanRow` are taken as lists, except in
  Model/Kept.lean and Model/Dest.lean (C106, C107); the slice of an argument store is a list, except in Model/Taken.lean (C108, C109);
  a `[]any` given to `ArgsFlatted` is a list, except in Model/Flat.lean (C110).  Query builders *are* modelled with identity.
* `database/sql`: rows and replies are given scripts.  `log` output is a list of strings.
* User code that recovers panics itself, keeps state between calls, or creates contexts of its own other than by
  calling `BuildQuery` (which is modelled: C102).
  User implementations of `Property`.  The zero `Context{}`, and contexts made from nil by `ContextWithFuncs(nil, …)` (nil contexts are modelled in Model/NilContext.lean, C116, where the builds of user code with such contexts are left open).  Builds with the partly filled context that `ContextWithFuncs` returns beside an error (C117 says what is in it).
* Fragments that contain themselves (pointer cycles), and indexes of `#join` beyond the range of `int`.
* `unicode.IsLetter` above ASCII, `strconv.ParseFloat` on anything but 1-15 digits, float to int
  conversion of such literals, formatting of times and floats: an abstract record `GoLib`; every
  theorem quantifies over it.

## Trusted base

* Lean 4.33.0's kernel.  Axioms: at most `propext`, `Classical.choice`, `Quot.sound` (checked
  by `#print axioms`; no axiom is added, no `sorry`, no `native_decide`, no `bv_decide`).
* That the model definitions say what the cited Go lines do (each carries file and lines); the
  Go semantics and standard-library functions described in `GoStr.lean` and `Val.lean`.
* `kernel_rfl` is a tactic that produces `Eq.refl _`; the kernel checks the equality.

## Plan per property

"neg" = the property is false of the code as it is; a theorem states a concrete counterexample
(name ends in `_counterexample`) and a `_partial` theorem states what does hold.

| id | model | proof |
|---|---|---|
| C01 | parse, run | scanner invariant on bytes without markers, then unfolding of `run` |
| C02, C03, C04, C07, C09, C10 | parse | one round-trip theorem: `parse (render items) = items` for every well-formed item list, by induction over items; the others are corollaries or separate one-token lemmas |
| C05 | scanAll, parse | decreasing measure `3*(bytes left)+rank(scan function)` |
| C82 | parse vs. `Spec.Reader` | a one-pass reference reader of templates; the tokens of the scanner and the parser's state simulate it, for every byte string |
| C06, C07, C08, C12 | parse | via C82 for every byte string (`Spec.Segments`); C06 neg: NUL (exactly: everything from the first NUL on is dropped and nothing else, `Proofs/CutAtNul`); C08 neg (`$1,?` accepted because the zero style *is* Dollar); C12 neg (`#f?` swallows the marker as text) |
| C11 | parse | the unclosed literal reaches the end of input as a bad token |
| C13-C17 | Store | induction over commit histories; C16 neg (`[]byte`) |
| C18, C19 | run vs. `Spec.meaning` | induction over builder trees; `Spec.meaning` is a compositional denotation |
| C20-C23, C32, C33, C37 | Spec | corollaries of C19 through symbolic documents (bytes and bound values); C20/C32 neg (leak in `#join`) |
| C24, C34, C35, C38, C42 | run with user code | invariants of `run` by induction on fuel; C35 neg at top level |
| C25, C26, C30, C31 | run | via `Spec.meaning`; C31 neg (error inside an item taken as end of list) |
| C27, C28 | decorate, trimSpace | lemmas on UTF-8 trimming |
| C29, C43 | funcJoin | loop invariant |
| C36 | run | heap and builders unchanged by custom-free trees |
| C39, C40 | addValueFuncs | permutation invariance; C40 neg (non-ASCII letters; exactly the ASCII names are callable) |
| C41 | evalCall, build | case analysis; partial (number literals panic); and from the build side: a fragment that builds holds only calls that fit their signatures |
| C44, C45 | argsFlatted | list induction; C45 neg (nil `*[]int`) |
| C46-C49 | interpolate | escaping lemmas; `Spec.Interpolate` says what a query filled in is; C48 neg, and exactly which queries panic or return an error; C49 neg, partial by the round trip of the two renderings |
| C50-C52 | scan, count | list induction; C51 neg |
| C53, C66-C68, C71, C75 | buildInternal, calls | unfolding with `Spec` results; induction over call sequences |
| C54, C81 | run vs. `queryMeaning` | positions of the marks in the document (`Spec.QueryTidy`); C54 neg (SELECT is built last); C81 neg (leak in `#join`); `Props/Subqueries.lean` has C49, C54, C78, C80, C81 for any builder with query builders in it |
| C55-C60 | dependency analysis | reachability: soundness/completeness of the worklist recursion; C57, C60 neg; exactly what is written, counterexamples included (`Spec.Emitted`; for any calls whatever names they use, `Spec.AnyCalls`) |
| C61, C62 | buildInternal twice | neg (Distinct + OrderBy; invalid order); partial; and, by induction over builds, exactly what `k` builds of any query builder leave behind (`Spec.grownBy`) |
| C63, C64 | calls, build | neg (CrossJoin, no From); partial |
| C65, C69, C70, C74 | calls | invariants by induction over call sequences |
| C76-C78 | run vs. `queryMeaning` | refinement: every clause of `buildInternal` is simulated by its document; induction over the nesting depth of query builders |
| C79, C80 | run vs. `queryMeaning` | relational version of the refinement: related values in, same document out; C80 neg |
| C73, C83 | debugLog | the refinement with a printing step (`Spec.Debug`); comparison of the meanings with and without it; effect invariant for the log; C73 neg |
| C84 | user code (`Prog`) | composition of big-step builds, for every context and state |
| C85 | fragments with slices (Memory.lean) | invariant over all histories: arrays with spare capacity have one owner; counterexample for shared arrays |
| C86 | programs with pointers (Memory.lean) | simulation with programs that copy, under a rule on changes; the ON prefix as counterexample |
| C87 | package syntax with positions (Position.lean) | refinement to the model without positions; invariant of `Next`; chain of tokens; `Spec.placeAt` counts lines and characters of the text |
| C88 | schedules of builds (Threads.lean) | rely-guarantee simulation of the sequential build: others only set prefixes, to the value the build sets too; counterexample for Distinct with OrderBy |
| C89 | schedules of builds (Threads.lean) | footprint of a build (what it refers to, closed under references); agreement of memory on it is an invariant of all schedules |
| C90 | schedules of builds (Threads.lean) | accesses of the next steps; footprint, and the writes that the simulation of C88 allows; neg (two builds of one builder) |
| C91 | Properties as functions (Properties.lean) | composition of big-step builds; C43 for `#join`; C15 for the placeholders |
| C92 | ScanBuilder, CountBuilder (Scan.lean) | unfolding; the queries sent are part of the result |
| C93 | tables and columns (Sqlb.lean), run | texts without references build to themselves (C01), then unfolding; neg (names with markers) |
| C94 | run | footprint with no query builders, two runs side by side |
| C95 | run | explanations of errors as an inductive relation (Spec/Blame.lean), induction on the fuel with query builders that only grow |
| C96 | Interpolate and Count on built queries | the marks of any build are distinct committed values (one more induction over the meaning, `Proofs/Marks.lean`, which also gives C20/C81 without conditions on `#join`), then C48; neg (texts that look like placeholders) |
| C97 | Argument values influence nothing but the argument list | two evaluations in lockstep (`Proofs/Lockstep.lean`): one induction on the nesting depth over the whole evaluator, user code included, with related states |
| C98 | Equal parts are interchangeable | one evaluation followed by a family of evaluations with enough fuel (`Proofs/SwapRun.lean`), with related query builders (`Proofs/Swap.lean`); specification `Spec/Swap.lean` |
| C99 | The style decides nothing but how placeholders are written | two evaluations in lockstep, one in each style, with the numbers of the placeholders so far as Kripke world (`Proofs/Styles.lean`, `Proofs/StylesRun.lean`); calls preserve the invariant of query builders (`Proofs/StylesCalls.lean`); specification `Spec/Styles.lean` |
| C100 | Options of Interpolate | `interpolateWith` = the fold over the options, then Interpolate; two interpolations side by side, with the relation `SameButTimes` |
| C101 | Texts of positions | decimal numbers around a `:` are read back; lines from C87 |
| C102 | BuildQuery called by user code | the evaluator does not look at the log, so the inner build is `BuildQuery` on the current query builders (`Proofs/Sim.lean`); commits by hand against the meaning of trees |
| C103 | schedules of calls and builds (Jobs.lean) | rely-guarantee simulation with ownership: shared builders only get their prefix set, own ones are as in the sequential run; footprint of calls; with no shared builder no race |
| C104 | Interpolate against a reader of SQL literals that knows nothing about placeholders (Spec/Literals.lean) | the reader is between pieces at every placeholder (induction over the reference reader of templates); a quoted text takes it from there to the end of a literal |
| C105 | Interpolate applied to its result | a machine accepts the texts read as plain text only; every piece and every written value keeps it in its accepting states |
| C106 | Model/Dest: ScanRow and Scan with slices and arrays | neg (`append` writes into the spare room of the caller's array); exactly which places are overwritten, by induction over the appends; then induction over rows |
| C107 | Model/Kept: a query builder whose columns, unions and dependencies are slices | neg (With keeps the slice of dependencies); invariant over histories: the other arrays belong to the query builder alone |
| C108 | Model/Taken: argument stores with slices, lists taken from them | refinement to lists that are values, for the slices of one context: they are in arrays that nobody else writes to |
| C109 | Model/Taken | neg (`Args` returns the slice of the store); the lists end before the spare room of the store |
| C110 | Model/Flat | the slice that is appended to lies in an array made by the call; induction over the arguments; refinement of `argsFlatted` |
| C111 | Model/UsedFlags | per property: its flag after a call is the flag before or that the call asks for it; induction over the calls |
| C112 | Model/Eval (evalCall, evalArg, safeCall) | neg (parameters of defined string and bool types); induction over the argument list; with C40 for the text of the call |
| C113 | Model/JoinCache over Model/Eval | neg (function that builds a query builder); induction over the history, C94 |
| C114 | run, buildInternal | Finishes (evaluation with enough fuel ends, keeping the ranks of query builders): structural induction over builders and user code inside an induction over ranks; the loop of #join by distance to an index for which a function of its template gives no text; added functions that build nothing and run out of items (TameFunc), with counterexamples for the others |
| C115 | jobs (Model/Jobs), run | the numbering of query builders is kept by every call (`apply_are`) and every build (C114), so by induction over the jobs each ends; with the theorem on goroutines of C103/C88 every fair schedule ends |
| C116 | Model/NilContext: the functions of building for `ctx == nil` | case distinction over builders; up to its first error a build with nil does what one with a context does (induction over the nesting of CTEs); every path through a query builder that is not an error or a panic reaches its conditions, a fragment; induction over the nesting of CTEs for the state |
| C117 | Model/Refused: ContextWithFuncs with both results | neg (functions visited before the refused entry are added); induction over the map in iteration order: the result is that of a prefix, then C38 and C39 |
| C118 | Model/SharedContext: CommitArg as steps that read or write one variable, schedules | neg (a value is lost; two values get the same placeholder); for calls that do not overlap: invariant, the rest of the call that runs gives what `CommitArg` gives from the store before it |
| C72 | buildInternal | neg (`OR` inside a condition); semantic reading of AND/OR in a tiny expression language |

## Disagreements between code and expectation found so far

1. NUL ends the template silently (syntax/lexer.go:9): the rest of the SQL text is dropped.
2. `$1 … ?` is accepted although `? … $1` is rejected (zero value of the style is Dollar).
3. `#f?`: the marker after a function name is copied as text.
4. Dollar style: unhashable arguments (`[]byte`, slices) panic.
5. `#join` treats *any* `ErrInvalidIndex` raised while building an item - also one from inside a
   nested fragment - as the end of the list.  If the item is the last one, it vanishes silently
   (so does, in a QueryBuilder, the last condition of WHERE); otherwise the build fails because
   later fragments are unused.
6. `#join` leaves the arguments committed by the last, failing iteration in the argument list.
7. A number literal passed to a string or bool parameter panics (outside `safeCall`).
8. Function names with non-ASCII letters are accepted but cannot be called.
9. `ArgsFlatted((*[]int)(nil))` panics.
10. `Interpolate` panics on an out-of-range bind variable; so do Debug mode and `Count`.
11. `Scan` ignores `rows.Err()`.
12. QueryBuilder builds SELECT last: Question-style arguments are out of order if SELECT has any.
13. References in ON conditions of mandatory joins do not keep optional joins.
14. A CTE with the name of an unaliased FROM table: its own dependencies are not collected.
15. Distinct + OrderBy: every build appends to the select list, so a second build differs.
16. An invalid Order is ignored in the first build and fails the second.
17. `CrossJoin` always panics; every join with a nil ON panics.
18. BuildQuery without From panics; a join without From builds `FROM  JOIN …`.
19. Conditions are joined by AND without parentheses.
20. The dictionary of tables keeps the row of a replaced main table: after `From(a); From(c)`,
    `InnerJoin(a, on)` writes into that dropped row and the join silently disappears, and
    references to `a` are accepted although no `a` is in the FROM clause.  `From(a);
    InnerJoin(a, on)` overwrites the main table (`FROM INNER JOIN a …`).
21. `Union` of builders that are all empty gives `UNION ()`, `WhereIn` with an empty list `c IN ()`.
22. Debug mode changes the outcome: the build panics if Interpolate does, e.g. for `$15` made of
    the placeholder `$1` and a text `5`.
23. Debug on a query builder used in another one: in the Question style its query is printed with
    the first arguments of the whole context, that is, with wrong values.
24. An unreferenced optional join of an unaliased CTE is kept if another used CTE depends on it.
25. A join with the name of the main table hides its ON references from the check for unknown
    tables; ON references of unneeded joins are not checked either.
26. BuildQuery of a QueryBuilder panics for a column made from a nil fragment (`ExprColumn(nil)`) or with
    a nil `*Fragment` in its expression (a nil `*Column` is an error), and for a table whose name is a template
    such as `#join(1, ',')` (names of tables are templates).
27. An unclosed quote in plain text is accepted as text up to the end.
28. `$n` with 2^63 ≤ n < 2^64 is read as a negative index (Interpolate panics).
29. `0.0` and `-0.0` are one argument in the Dollar style although they are written differently.
30. A digit or `?` from another fragment directly after a placeholder merges with it
    (`$1` and `5` give `$15`).
31. Interpolate does not escape quotes in formatted times (a layout may contain `'`).
32. `f2 := Fa(raw, f1.Args...)` after `f1.AppendArgs(…)` shares the array of `f1`: `f2.AppendArgs(x)`
    can overwrite an argument of `f1` (C85).
33. Joins set the prefix of the caller's ON fragment: used elsewhere it reads `WHERE ON …` (C86).
34. Building a query builder writes to it (`b.selects.Prefix`, and with Distinct and OrderBy
    `b.touches`): two goroutines that build the same one have a data race (C90); with Distinct and
    OrderBy they can return wrong queries (C88).
35. Column names are templates: `Column("a?")` does not build (C93).
36. `CountBuilder` panics on a database error if the built query contains text that looks like a
    placeholder, e.g. the name of a table (C96): the query is interpolated for the error message.
37. Interpolate, and with it Debug mode and the error path of Count, panics on an argument that is a nil
    pointer with a method `String` or `Value` of the type it points to, such as `(*time.Time)(nil)` or
    `(*sql.NullString)(nil)` (C48, C52, C73, C96).  In the model these are the values `Val.nilRecv`; methods
    `String` and `Value` that panic for other reasons are not modelled.
38. `ScanRow(rows, dest...)` overwrites elements of the caller's array behind `dest` if there are more columns
    than destinations: with `all[0:1]` and `all[1:2]` as destinations of two calls the second field is lost (C106).
39. `With(name, builder, deps...)` keeps the caller's slice: assigning to `deps[0]` later changes the query (C107).
40. `ctx.Args()` returns the slice of the context: appending to a list returned earlier overwrites arguments committed
    since, and assigning to its elements changes the arguments of the context (C109).
41. `ContextWithFuncs` accepts functions with parameters of defined string and bool types (`type Name string`), but no call
    with a literal ever runs one: the call is an error, since reflection does not convert strings and bools (C112).
42. `#join` keeps the answer of its test with the function: one that was refused while the query it builds was not complete
    is refused in that context for ever (C113).
43. A query builder that contains itself (`b.With(x, b)`) is accepted by all calls, and its build never returns. The same holds for `#join` over a function that never reports ErrInvalidIndex for positive indexes, and for a function that builds a call of itself: there is no limit on items or depth (C114).
44. `ContextWithFuncs` returns, beside an error, a context to which the functions visited before the refused entry have been added; which ones depends on the iteration order of the map (C117).
45. `CommitArg` takes no lock: of two goroutines that call it for one context at the same time, one can lose its value, and with `$` two different values can get the same placeholder (C118). The documentation does not say that contexts may be shared.

## Mutants that were not run

Of `seeded/mutants.json`, these were written but not run, so nothing is claimed of them: M373, M374, M375, M376, M377, M378, M379, M380, M381, M382, M383, M394, M395, M396, M397, M401, M402, M421, M422.
The run of M437 ended at a concrete query before it reached the theorems of its claim.
