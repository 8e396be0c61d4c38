{
 "C06": "False of the code for templates with a NUL byte (counterexample). Proved for every accepted template without NUL, and exactly for all: a template is read up to its first NUL (C06_reading_stops_at_nul); so a fragment builds exactly if and to what the text before the NUL does (C06_build_stops_at_nul).",
 "C08": "False of the code: `$1 … ?` is accepted (counterexample). Proved: a `$n` after a `?` is always rejected, and for well-formed templates exactly these are (C08_accepted_iff).",
 "C12": "False of the code: a `?` or `$1` directly after a bare `#name` is copied (counterexample). Proved for every template (read up to a NUL): this is the only way a marker outside of quotes is copied.",
 "C16": "False of the code: Dollar-style commit of an unhashable value panics (counterexample). Proved: it panics exactly on unhashable values.",
 "C18": "Trees of fragments, columns and tables with the built-in functions; query builders are covered by C59 and C76.",
 "C19": "Refinement: build = denotation, for all trees without user code and query builders (C76/C77 cover those with query builders).",
 "C20": "False of the code: the iteration that ends a #join leaves its argument behind (counterexample). Proved for trees in which no #join does that. For all trees: every placeholder has an argument of its own.",
 "C23": "False for values that cannot be map keys (counterexample). Proved for all others.",
 "C31": "False of the code: an item failing with ErrInvalidIndex ends a #join without explicit end (counterexample). Proved for all other failures; C31_index_failure_ends_join says exactly what happens in the remaining case.",
 "C32": "False of the code as for C20 (counterexample). Proved for trees in which no #join drops an item that committed values.",
 "C35": "False of the code: a number literal for a string parameter panics outside of safeCall (counterexample). Proved: besides that, only a bind variable of the fragment's own template with an unhashable value panics.",
 "C40": "False for names with non-ASCII letters (counterexample). Proved for ASCII names, and exactly: an accepted name is callable if and only if it is ASCII (C40_callable_iff).",
 "C41": "False for number literals given to string or bool parameters, which panic (counterexample). Proved for everything else; also: the function is never run. Also proved: in a fragment that builds, every call in the template names a defined function and fits its signature.",
 "C45": "False for nil pointers to slices (counterexample). Proved: it panics exactly for those.",
 "C48": "False for bind variables out of range and for nil pointers with a method of the type they point to, such as (*time.Time)(nil) (counterexamples). Proved for all others; exactly which queries panic and which return an error is characterised.",
 "C49": "False if a digit follows a placeholder, and for 0.0/-0.0 (counterexamples). Proved for tidy trees and query builders without those.",
 "C51": "False of the code: rows.Err is not checked (counterexample). Proved for iterations that are not aborted.",
 "C52": "The error path panics where Interpolate does (C48, counterexample); exactly when: C52_count_panics_iff. The value path, and the errors otherwise, are proved in full.",
 "C54": "False of the code: SELECT is built last (counterexample). Proved if SELECT, or everything it is built after, commits no values. Which argument every placeholder gets in the other case: C54_order_of_arguments_partial.",
 "C55": "False of the code for joins under a name given to From (counterexample). Proved for all other calls; C55_tables_of_any_calls says exactly which tables are written for any calls, these included.",
 "C56": "One half proved without restriction; the other is false of the code for CTEs that are also dependencies (counterexample) and proved otherwise. Exactly which joins are written: C60_exactly_what_is_written.",
 "C57": "False of the code for unneeded mandatory joins under Distinct (counterexample). Proved for all others.",
 "C58": "False of the code for joins under a name given to From (counterexample). Proved for all other calls; for any calls, C58_looked_up_tables_are_given with exactly the tables that are looked up.",
 "C60": "False of the code: dependencies of a CTE used by an unaliased table are not collected (counterexample). Proved otherwise; `only needed ones` without restriction. C60_written_by_any_calls says exactly which CTEs and tables are written, for any calls, those cases included.",
 "C61": "False of the code with Distinct and OrderBy and with an invalid order (counterexamples). Proved for all other query builders, with any builds in between. Builds between the calls that make a builder do not matter either (C61_builds_between_calls_partial). For every query builder without user code, C61_after_builds says exactly what k builds leave behind: the columns ordered by are selected k times more, and invalid orders become errors (then the second build fails, C61_invalid_order_fails_again).",
 "C62": "False of the code: the first build ignores invalid orders (counterexample). Proved: all builds after a successful one fail, and the error names every invalid order.",
 "C63": "False of the code for nil ON conditions and CrossJoin (counterexample). Proved: all other joins do not panic, and panics do not depend on earlier calls.",
 "C64": "False of the code for incomplete queries: no table, a column of a nil fragment, a nil fragment in a column's expression, a table name that is a template (counterexamples). Proved for complete ones, with Debug too where C73 holds; a nil column is an error.",
 "C71": "False of the code: a last condition failing with ErrInvalidIndex vanishes (counterexample). Proved otherwise, and that only the last condition can vanish, in this way (C71_only_the_last_condition).",
 "C72": "False of the code for conditions with OR outside of parentheses (counterexample). Proved for all others.",
 "C73": "False of the code: printing can panic (counterexamples). Proved: successful builds are the same; outcomes are the same if the printed queries contain nothing that can be taken for a placeholder and no committed value makes Interpolate panic; exact characterisation at top level.",
 "C80": "False for values that cannot be map keys (counterexample). Proved for all others.",
 "C81": "False of the code as for C20 (counterexample). Proved for query builders in which no #join drops an item that committed values. For all query builders: every placeholder has an argument of its own.",
 "C83": "Proved: the last line is the query with the arguments of the context filled in; without Debug nothing is printed. In the Question style a nested query builder is printed with wrong values (counterexample).",
 "C85": "False of the code when the Args or Fragments of one fragment are spread into another one and have spare capacity (counterexample). Proved for all histories without that, for every growth of append.",
 "C86": "False of the code: joins set the prefix of the ON fragment (counterexample). Proved: nothing else is changed, and in programs that do not change a fragment after it was used pointers are like copies.",
 "C87": "Model/Position.lean is the parser with positions; it is proved to agree with the parser of the other theorems on every template.",
 "C88": "False of the code with Distinct and OrderBy (counterexample: a goroutine returns the ordering column twice). Proved for builders made by calls without that combination and with valid orders, with sequentially consistent memory: same results in every schedule, fair schedules finish, builders stay the same. The same for goroutines that also make and change query builders of their own.",
 "C89": "Model/Threads.lean is the evaluator as a goroutine; alone it is proved to be the sequential evaluator.",
 "C90": "False of the code: builds set the SELECT prefix of the builder (counterexample). Proved: no race without shared query builders; otherwise the prefix is the only field raced on (builders without Distinct and OrderBy together).",
 "C91": "propertiesFunc is the function the documentation writes around Properties.Build; C43 and C13-C15 do the rest.",
 "C92": "The database is any function from queries to answers; the model also gives the list of queries sent.",
 "C93": "Full for names that contain no #, ?, $ and no NUL byte and do not begin or end with a space; a column name is read as a template, so Column(\"a?\") fails (counterexample). Exactly: a column is built to its text in every context if and only if the text, as a template, refers to nothing (C93_column_text_exactly).",
 "C94": "Full. It also justifies leaving out the joinTested cache of the code (C94_trial_call).",
 "C95": "Full. User code answers for its own errors (any error is accepted of it); which of several unused arguments is reported is C24.",
 "C96": "False of the code for queries with text that looks like a placeholder, and for nil pointers such as (*time.Time)(nil) among the arguments (counterexamples). Proved for all others.",
 "C98": "The relation of what may be replaced by what is arbitrary, as long as the replacement builds to the same in every context and state and refers to the same tables; C98_tables_must_agree shows that the second condition is needed.",
 "C99": "What it means that user code does not look at placeholders is a relation between two runs of the code (Spec/Styles.lean); C99_code_that_looks shows that the condition is needed, C23_styles_differ_counterexample that values must be hashable.",
 "C102": "User code that calls BuildQuery is a constructor of the model's user code; the statement with commits by hand is for trees of fragments, columns and tables and for contexts with the built-in functions.",
 "C103": "Model/Jobs.lean: goroutines with lists of calls and builds. With shared builders see C88 and C90.",
 "C104": "Literals are read with doubled quotes (no backslash escapes). Formats of times with a quote are excluded: the code does not escape them, see the example beside the theorem. C104_built_and_interpolated is the property for values given to fragments and query builders.",
 "C105": "Floats must be written without quotes and markers and times without quotes; true of %f and of the default format, which are parameters of the model.",
 "C106": "False of the code: `append` in ScanRow overwrites the array behind `dest` (counterexample). Proved: exactly which places are overwritten, for every array, slice and growth policy, and that Scan and ScanRow assign as they should wherever no slice of the caller reaches behind another.",
 "C107": "False of the code: With keeps the slice of dependencies (counterexample). Proved for all histories without an assignment to an element of a slice of dependencies.",
 "C109": "False of the code: Args returns the slice of the store, so that changing or appending to it changes the context (counterexamples). Proved: what is committed later does not change the list.",
 "C112": "False of the code for parameters of defined string and bool types (counterexample): such functions are accepted and never run (C112_defined_types_never_run). Proved for all other signatures, for the call and for its text in a template.",
 "C113": "False of the code: the answer is kept, so a function that builds a query which is not complete yet is refused for ever (counterexample). Proved for functions that refer to no query builder; that the answer is kept and the function is tested once is proved for all.",
 "C117": "False of the code: the functions visited before the refused entry have been added, and which these are depends on the iteration order (counterexample). Proved: exactly these are added, all allowed; everything else in the statement.",
 "C118": "False of the code: CommitArg takes no lock, so a value can be lost and two values can get one placeholder (counterexamples). Proved for calls that do not overlap, as under a mutex."
}