{"id": "C01", "title": "Plain SQL passes through unchanged", "statement": "A Raw text that contains none of $ ? # ' \" ` and no NUL byte is built to exactly that text with surrounding white space removed, and contributes no argument.", "quantifier": "every byte string without those seven bytes, including invalid UTF-8; both bind-variable styles", "why_tests_cant": "the input space is all byte strings; tests try a few ASCII samples", "anchors": ["syntax/scanner.go:scanPlain", "syntax/parser.go:Parse", "build.go:BuildFragment"]}
{"id": "C02", "title": "Quoted regions are opaque", "statement": "Whatever stands between a pair of ' \" or ` quotes in a template - including $1, ?, #f1 and other quote characters - is copied to the query verbatim and is never treated as a reference.", "quantifier": "every quote character, every quoted content (not containing that quote or NUL; '' allowed in '...'), every surrounding plain text", "why_tests_cant": "contents are arbitrary strings and may look like any reference", "anchors": ["syntax/scanner.go:scanQuotedPlain", "syntax/scanner.go:scanPlain"]}
{"id": "C03", "title": "Doubled $$ and ?? are text", "statement": "$$ and ?? in a template never bind an argument; both characters are copied to the query.", "quantifier": "every surrounding text and any number of doubled markers", "why_tests_cant": "must hold at every position and in every combination with neighbouring text", "anchors": ["syntax/scanner.go:scanPlain"]}
{"id": "C04", "title": "Templates are read back exactly", "statement": "For every template assembled from text, quoted regions, doubled markers, bind variables, #name1 calls and #name('..',..) calls, Parse returns exactly these items in this order: nothing is lost, merged across kinds, reordered or reinterpreted.", "quantifier": "every list of template items satisfying the adjacency rules of the syntax", "why_tests_cant": "the set of templates is infinite and errors hide in adjacency of items", "anchors": ["syntax/parser.go:Parse", "syntax/scanner.go:NextToken"]}
{"id": "C05", "title": "Parsing always terminates", "statement": "Parse returns (a clause or an error) for every input string.", "quantifier": "every byte string", "why_tests_cant": "termination is not observable by a finite test suite", "anchors": ["syntax/parser.go:Parse", "syntax/scanner.go:NextToken", "syntax/lexer.go:Next"]}
{"id": "C06", "title": "No part of a template is dropped silently", "statement": "If Parse accepts a template, all of its text outside references appears in the query.", "quantifier": "every byte string", "why_tests_cant": "requires the one byte value that is special to be tried in every context", "anchors": ["syntax/lexer.go:Next", "syntax/lexer.go:EOF"]}
{"id": "C07", "title": "Bind variables refer to the intended arguments", "statement": "The n-th ? of a template refers to the n-th argument, and $n refers to the n-th argument wherever and how often it occurs.", "quantifier": "every number and arrangement of bind variables and text", "why_tests_cant": "numbering must hold for any count and position", "anchors": ["syntax/parser.go:bindVarExpr"]}
{"id": "C08", "title": "Mixing $n and ? in one template is rejected", "statement": "A template that contains both a $n and a ? bind variable is a syntax error.", "quantifier": "every arrangement of bind variables and text", "why_tests_cant": "both orders and any distance between them", "anchors": ["syntax/parser.go:bindVarExpr"]}
{"id": "C09", "title": "#f1 is the same as #f(1)", "statement": "#nameN and #name(N) parse to the same call for every function name and every index.", "quantifier": "every name of letters and underscore, every decimal index, every surrounding text", "why_tests_cant": "infinitely many names and numbers", "anchors": ["syntax/parser.go:funcExpr", "syntax/scanner.go:scanFuncName"]}
{"id": "C10", "title": "String arguments of functions are passed exactly", "statement": "Writing a string s as '...' with every quote doubled as an argument of a preprocessing function passes exactly s to it.", "quantifier": "every string s without NUL", "why_tests_cant": "escaping bugs depend on positions of quotes in s", "anchors": ["syntax/parser.go:funcExpr", "syntax/scanner.go:scanFuncArgQuoted"]}
{"id": "C11", "title": "Malformed function calls are rejected", "statement": "A call whose string argument or argument list is not closed before the end of the template is a syntax error.", "quantifier": "every name and every unclosed argument text", "why_tests_cant": "infinitely many truncations", "anchors": ["syntax/scanner.go:scanFuncArgQuoted", "syntax/parser.go:funcExpr"]}
{"id": "C12", "title": "Every placeholder in the query is backed by an argument", "statement": "A ? in a template outside quotes and not doubled is either bound to an argument or rejected; it is never copied to the query as text.", "quantifier": "every template", "why_tests_cant": "depends on what precedes the marker", "anchors": ["syntax/parser.go:funcExpr"]}
{"id": "C13", "title": "Question style keeps arguments in order", "statement": "In the Question style every committed argument yields the placeholder ? and the argument list is exactly the committed values in commit order.", "quantifier": "every sequence of committed values of any type", "why_tests_cant": "histories of any length", "anchors": ["context_args.go:questionArgStore.CommitArg"]}
{"id": "C14", "title": "Dollar placeholders denote their values forever", "statement": "In the Dollar style the placeholder $n returned for a value is in range, the n-th argument equals that value, and no later commit changes it.", "quantifier": "every sequence of committed hashable values", "why_tests_cant": "a later commit could disturb an earlier placeholder only in some histories", "anchors": ["context_args.go:dollarArgStore.CommitArg"]}
{"id": "C15", "title": "Dollar style merges equal values and only those", "statement": "Two values get the same placeholder exactly if they are equal in Go; the argument list contains no two equal values.", "quantifier": "every sequence of committed hashable values", "why_tests_cant": "pairs of values at any distance in a history", "anchors": ["context_args.go:dollarArgStore.CommitArg"]}
{"id": "C16", "title": "Any database value can be an argument in the Dollar style", "statement": "Committing a value that database/sql accepts (such as []byte) does not panic.", "quantifier": "every argument value", "why_tests_cant": "depends on the dynamic type of the value", "anchors": ["context_args.go:dollarArgStore.CommitArg"]}
{"id": "C17", "title": "Every style other than Dollar builds question marks", "statement": "For any BindVarStyle value except Dollar the build result is the one of Question.", "quantifier": "every style value, every builder", "why_tests_cant": "the style is an open integer type", "anchors": ["context.go:newEmptyContext"]}
{"id": "C18", "title": "Building terminates", "statement": "Building any finite tree of fragments, columns and tables with the built-in functions returns.", "quantifier": "every finite builder tree, every nesting depth and list length", "why_tests_cant": "termination of the #join loop and of the recursion for unbounded sizes", "anchors": ["build.go:BuildFragment", "func_builtin.go:funcJoin"]}
{"id": "C19", "title": "The query is the template with its references substituted", "statement": "The built text is the template with bind variables replaced by placeholders, #f/#fragment references replaced by the built fragments and #join by the joined pieces, trimmed and decorated, at every nesting level, with exactly the specified errors otherwise.", "quantifier": "every finite builder tree over the built-in functions, every starting argument store", "why_tests_cant": "compositional over unbounded trees", "anchors": ["build.go:BuildFragment", "build.go:buildClause", "func_exec.go:evalCall", "func_builtin.go:funcJoin"]}
{"id": "C20", "title": "Question placeholders and arguments correspond one to one", "statement": "In the Question style the i-th placeholder of the query stands for the i-th argument and there are as many arguments as placeholders.", "quantifier": "every builder tree", "why_tests_cant": "an off-by-one anywhere shifts all later arguments", "anchors": ["context_args.go:questionArgStore.CommitArg", "func_builtin.go:funcJoin"]}
{"id": "C21", "title": "Dollar placeholders in a built query resolve", "statement": "In the Dollar style every placeholder of the query has a number between 1 and the number of arguments, and that argument equals the value the template refers to.", "quantifier": "every builder tree with hashable arguments", "why_tests_cant": "all nestings and repetitions", "anchors": ["context_args.go:dollarArgStore.CommitArg", "build.go:buildClause"]}
{"id": "C22", "title": "Argument values cannot change the query text", "statement": "Replacing argument values by other values leaves the query text unchanged (Question style: any values; Dollar style: values with the same equality pattern).", "quantifier": "every builder tree and every replacement of its argument values", "why_tests_cant": "SQL injection freedom quantifies over all values", "anchors": ["properties.go:arg.BuildFragment", "context_args.go"]}
{"id": "C23", "title": "Both styles build the same query", "statement": "The Dollar and the Question build of the same tree succeed together and differ only in the placeholders; corresponding placeholders stand for equal values.", "quantifier": "every builder tree with hashable arguments", "why_tests_cant": "relates two executions", "anchors": ["context_args.go", "build.go:BuildQuery"]}
{"id": "C24", "title": "Unused arguments and fragments are reported", "statement": "If a fragment builds successfully, each of its arguments was bound at least once (so it is in the argument list) and each of its fragments was built; otherwise an error is returned. An error about unused arguments and fragments names only ones the template does not refer to, and if the template calls no function but #arg, #f and #fragment, the first such argument and the first such fragment.", "quantifier": "every fragment, including ones using custom functions and #join", "why_tests_cant": "any subset of references could be missing", "anchors": ["context_fragment.go:checkUsage", "properties.go:checkUsage"]}
{"id": "C25", "title": "A bind variable without an argument is an error", "statement": "A template that refers to an argument position the fragment does not have never builds successfully.", "quantifier": "every template with such a bind variable, any arguments", "why_tests_cant": "all positions and counts", "anchors": ["build.go:buildClause"]}
{"id": "C26", "title": "A reference to a missing fragment or argument is an error", "statement": "#f, #fragment or #arg with an index outside the fragment's lists never builds successfully outside of #join templates.", "quantifier": "every index out of range, any surrounding template", "why_tests_cant": "all indexes and list lengths", "anchors": ["properties.go:Build", "func_builtin.go:funcFragment"]}
{"id": "C27", "title": "Prefix and suffix appear exactly with a non-empty body", "statement": "Prefix and Suffix are added, each separated by one space, exactly if the trimmed body is not empty.", "quantifier": "every body, prefix and suffix", "why_tests_cant": "white-space-only bodies of any form", "anchors": ["build.go:BuildFragment"]}
{"id": "C28", "title": "Built bodies are trimmed", "statement": "The result of a fragment without prefix and suffix neither starts nor ends with white space.", "quantifier": "every fragment, every build context", "why_tests_cant": "Unicode white space, multi-byte boundaries", "anchors": ["build.go:BuildFragment"]}
{"id": "C29", "title": "#join joins all items in order", "statement": "#join over a fragment's arguments or fragments yields the non-empty item texts in order, separated by the separator, covering every item (of the requested range).", "quantifier": "every item list, separator and range", "why_tests_cant": "unbounded list lengths", "anchors": ["func_builtin.go:funcJoin"]}
{"id": "C30", "title": "An explicit #join range is checked", "statement": "If a #join range names a positive first or last index that does not exist, the build fails", "quantifier": "every list length and range", "why_tests_cant": "all boundary combinations", "anchors": ["func_builtin.go:funcJoin"]}
{"id": "C31", "title": "#join never drops an item silently", "statement": "If building one of the joined items fails, the build fails.", "quantifier": "every item list and failure inside an item", "why_tests_cant": "failures deep inside an item look like the end of the list", "anchors": ["func_builtin.go:funcJoin"]}
{"id": "C32", "title": "Only arguments with a placeholder are sent", "statement": "The argument list contains no value without a placeholder in the query.", "quantifier": "every builder tree, Question style", "why_tests_cant": "leaks depend on list lengths of arguments and fragments in a template", "anchors": ["func_builtin.go:funcJoin", "context_args.go"]}
{"id": "C33", "title": "References are scoped to their own fragment", "statement": "The text and arguments a fragment contributes do not depend on the arguments, fragments or template of the fragment it is nested in.", "quantifier": "every fragment and every enclosing fragment", "why_tests_cant": "scoping must hold at all depths", "anchors": ["context_fragment.go:contextWithFragment", "contex_with.go:contextValue"]}
{"id": "C34", "title": "Arguments of a context are append-only", "statement": "No build step, successful or failing, with custom code or not, changes or removes an argument already committed to the context.", "quantifier": "every builder, every context state, every outcome", "why_tests_cant": "all histories of builds in one context", "anchors": ["context_args.go"]}
{"id": "C35", "title": "Panics below a function call become errors", "statement": "A panic raised while evaluating a preprocessing function or anything it builds is returned as an error by the build.", "quantifier": "every function, every nested builder including user code", "why_tests_cant": "panics can start at any depth", "anchors": ["func_exec.go:safeCall"]}
{"id": "C36", "title": "Building does not change the builders", "statement": "Building a tree of fragments, columns and tables any number of times in new contexts gives the same result every time.", "quantifier": "every builder tree, every outcome", "why_tests_cant": "histories of builds", "anchors": ["build.go:BuildQuery", "context_fragment.go:newFragmentContext"]}
{"id": "C37", "title": "Rebuilding in the same Dollar context reuses the placeholders", "statement": "Building the same tree again in the same Dollar context gives the same text and adds no arguments.", "quantifier": "every builder tree with hashable, non-NaN arguments, every starting context", "why_tests_cant": "relates two consecutive builds", "anchors": ["context_args.go:dollarArgStore.CommitArg"]}
{"id": "C38", "title": "The nearest function definition wins", "statement": "A function added with ContextWithFuncs shadows functions of the same name of the parent contexts, leaves all other names untouched and is not visible in the parent.", "quantifier": "every chain of contexts and every name", "why_tests_cant": "chains of any length", "anchors": ["context_func.go", "contex_with.go:contextValue"]}
{"id": "C39", "title": "Function maps are validated completely", "statement": "ContextWithFuncs succeeds exactly if every name and every signature of the map is allowed, independently of the iteration order of the map.", "quantifier": "every function map and iteration order", "why_tests_cant": "Go iterates maps in random order", "anchors": ["func.go:addValueFuncs", "func.go:goodFunc", "func.go:goodName"]}
{"id": "C40", "title": "Every accepted function can be called", "statement": "A name accepted by ContextWithFuncs can be called from a template.", "quantifier": "every accepted name", "why_tests_cant": "names over all of Unicode", "anchors": ["func.go:goodName", "syntax/lexer.go:IsLetter"]}
{"id": "C41", "title": "Calls with a wrong argument list are rejected", "statement": "A call with a wrong number of arguments or a string/bool/nil literal of the wrong type is an error and the function is not run.", "quantifier": "every signature and every argument list", "why_tests_cant": "all combinations of signatures and argument lists", "anchors": ["func_exec.go:evalCall", "func_exec.go:evalArg"]}
{"id": "C42", "title": "The invalid-index error survives nesting", "statement": "errors.Is(err, ErrInvalidIndex) holds for the error of a build whenever it holds for the error raised by the innermost fragment, at any nesting depth.", "quantifier": "every depth of nesting", "why_tests_cant": "wrapping at every level", "anchors": ["build.go", "func_exec.go:evalCall", "errors.go"]}
{"id": "C43", "title": "Custom list functions work with #join", "statement": "A custom function that yields items 1..n and reports ErrInvalidIndex for all other indexes is joined as exactly n items.", "quantifier": "every n, every item text", "why_tests_cant": "unbounded n", "anchors": ["func_builtin.go:funcJoin", "func.go:joinCompatibility", "properties.go:Build"]}
{"id": "C44", "title": "ArgsFlatted concatenates one level", "statement": "ArgsFlatted returns the concatenation of the arguments with slices, arrays and pointers to them replaced by their elements, one level deep, in order.", "quantifier": "every list of values", "why_tests_cant": "unbounded lists and nestings", "anchors": ["util/args.go:ArgsFlatted"]}
{"id": "C45", "title": "ArgsFlatted never panics", "statement": "ArgsFlatted returns for every list of values.", "quantifier": "every list of values", "why_tests_cant": "depends on rare dynamic types", "anchors": ["util/args.go:argsFrom"]}
{"id": "C46", "title": "Quoted strings are single literals denoting the value", "statement": "The text Interpolate writes for a string is one SQL string literal: read back with doubled quotes undone it is the original, and the scanner sees it as one opaque region.", "quantifier": "every string (for the scanner: without NUL)", "why_tests_cant": "quotes at any position", "anchors": ["util/interpolate.go:quoteStringValue"]}
{"id": "C47", "title": "Interpolate replaces exactly the placeholders", "statement": "Interpolate replaces each placeholder by the encoding of its argument and copies everything else.", "quantifier": "every parsable query without function calls and every argument list", "why_tests_cant": "all queries", "anchors": ["util/interpolate.go:Interpolate"]}
{"id": "C48", "title": "Interpolate never panics", "statement": "Interpolate returns a text or an error for every query and argument list.", "quantifier": "every query and argument list", "why_tests_cant": "index arithmetic at all boundaries", "anchors": ["util/interpolate.go:Interpolate"]}
{"id": "C49", "title": "Interpolation is style independent", "statement": "Interpolating the Dollar build and the Question build of the same tree gives the same text.", "quantifier": "every builder tree whose texts contain no markers of their own; every query builder, and every builder with query builders in it", "why_tests_cant": "relates two executions of two components", "anchors": ["util/interpolate.go:Interpolate", "build.go:BuildQuery"]}
{"id": "C50", "title": "ScanRow drops extra columns", "statement": "ScanRow assigns the first columns to the destinations in order, ignores the remaining columns, and fails if there are fewer columns than destinations.", "quantifier": "every number of columns and destinations, every conversion behaviour", "why_tests_cant": "all counts", "anchors": ["util/scan.go:ScanRow"]}
{"id": "C51", "title": "Scan reports an aborted iteration", "statement": "If the driver aborts the iteration over the rows with an error, Scan returns an error instead of a partial result.", "quantifier": "every row sequence and abort point", "why_tests_cant": "every crash point of the iteration", "anchors": ["util/scan.go:Scan"]}
{"id": "C52", "title": "Count counts the given query", "statement": "Count wraps exactly the given query, returns the value the database returns, 0 for no rows, and an error wrapping the database error otherwise.", "quantifier": "every query, argument list and database reply", "why_tests_cant": "all replies", "anchors": ["util/scan.go:Count"]}
{"id": "C53", "title": "Clauses appear in SQL order", "statement": "A QueryBuilder query consists of With, SELECT, FROM, WHERE, GROUP BY, ORDER BY, LIMIT, OFFSET and UNION parts, in this order, whatever the order of the calls, and empty parts are left out.", "quantifier": "every query builder state", "why_tests_cant": "all combinations of clauses", "anchors": ["sqlb/query_builder_build.go:buildInternal"]}
{"id": "C54", "title": "QueryBuilder arguments follow the placeholders in Question style", "statement": "In a Question-style QueryBuilder query the i-th placeholder stands for the i-th argument.", "quantifier": "every query builder, and every builder with query builders in it", "why_tests_cant": "depends on which clauses carry arguments", "anchors": ["sqlb/query_builder_build.go:buildInternal"]}
{"id": "C55", "title": "No join is lost without Distinct", "statement": "Without Distinct every joined table appears in the FROM clause, in order; with Distinct every non-optional one does.", "quantifier": "every query builder state", "why_tests_cant": "all join lists", "anchors": ["sqlb/query_builder_build.go:buildFrom"]}
{"id": "C56", "title": "Referenced optional joins are kept, others are dropped", "statement": "With Distinct an optional join is kept if and only if it is referenced by the selected, filtering, grouping or ordering expressions, or by the ON condition of a join needed for them.", "quantifier": "every query builder state and reference graph", "why_tests_cant": "reachability over unbounded graphs", "anchors": ["sqlb/query_builder_dependecy.go:collectDependencies", "sqlb/query_builder_build.go:buildFrom"]}
{"id": "C57", "title": "Tables needed by kept joins are kept", "statement": "Every table referenced in the ON condition of a join that appears in the query appears in the query as well.", "quantifier": "every query builder", "why_tests_cant": "reference graphs", "anchors": ["sqlb/query_builder_dependecy.go:collectDependencies"]}
{"id": "C58", "title": "References to unknown tables are rejected", "statement": "A query whose selected, filtering, grouping or ordering expressions, or needed ON conditions, reference a table that was never given to From or a join fails to build.", "quantifier": "every query builder", "why_tests_cant": "reference graphs", "anchors": ["sqlb/query_builder_dependecy.go:collectDepsFromTable"]}
{"id": "C59", "title": "Dependency analysis terminates", "statement": "Collecting dependencies terminates for cyclic references between ON conditions and between CTEs.", "quantifier": "every query builder", "why_tests_cant": "cyclic graphs of any size", "anchors": ["sqlb/query_builder_dependecy.go"]}
{"id": "C60", "title": "Exactly the needed CTEs are emitted", "statement": "A CTE is emitted if and only if a table of the FROM clause uses its name or a needed CTE declares it as dependency; CTEs appear in declaration order.", "quantifier": "every set of CTEs and dependency graph", "why_tests_cant": "reachability over unbounded graphs", "anchors": ["sqlb/query_builder_dependecy.go:collectDepsFromCTE", "sqlb/query_builder_build.go:buildCTEs"]}
{"id": "C61", "title": "BuildQuery of a QueryBuilder can be repeated", "statement": "Building the same QueryBuilder again gives the same query and arguments.", "quantifier": "every query builder, every number of builds", "why_tests_cant": "histories of builds", "anchors": ["sqlb/query_builder_order.go:buildOrders", "sqlb/query_builder_build.go:buildSelects"]}
{"id": "C62", "title": "Invalid orders are reported", "statement": "OrderBy with an invalid Order makes BuildQuery fail with an error that names the invalid orders.", "quantifier": "every order value and query builder", "why_tests_cant": "histories of builds", "anchors": ["sqlb/query_builder_order.go:buildOrders"]}
{"id": "C63", "title": "Joins never panic", "statement": "All join methods accept every argument without panicking.", "quantifier": "every table and ON fragment", "why_tests_cant": "rare arguments", "anchors": ["sqlb/query_builder_join.go:join", "sqlb/query_builder_join.go:CrossJoin"]}
{"id": "C64", "title": "BuildQuery of a QueryBuilder never panics", "statement": "BuildQuery returns an error instead of panicking for an incompletely specified query (no From, nil columns).", "quantifier": "every query builder state", "why_tests_cant": "rare states", "anchors": ["sqlb/query_builder_dependecy.go:collectDependencies"]}
{"id": "C65", "title": "From and joins can be called in any order", "statement": "Calling From before, between or after the other calls gives the same query, when From is called once and no join uses the name of the main table.", "quantifier": "every sequence of calls and position of From in it, every later build", "why_tests_cant": "all interleavings of calls", "anchors": ["sqlb/query_builder_join.go"]}
{"id": "C66", "title": "Limit and Offset take effect only if positive", "statement": "LIMIT n / OFFSET n appear exactly if a positive value was set; the last positive value wins.", "quantifier": "every sequence of Limit/Offset calls", "why_tests_cant": "histories of calls", "anchors": ["sqlb/query_builder.go:Limit", "sqlb/query_builder.go:Offset", "sqlb/query_builder_build.go:buildInternal"]}
{"id": "C67", "title": "WhereIn lists every value", "statement": "WhereIn(c, list) builds c IN (p1, ..., pn) with one placeholder per list element, in order.", "quantifier": "every list", "why_tests_cant": "unbounded lists", "anchors": ["sqlb/query_builder_where.go:WhereIn"]}
{"id": "C68", "title": "Unions are appended in order", "statement": "The union part is UNION (q1) UNION (q2) ... over the non-empty union queries, in order.", "quantifier": "every list of unions", "why_tests_cant": "unbounded lists", "anchors": ["sqlb/query_builder_build.go:buildUnion"]}
{"id": "C69", "title": "Recorded errors are sticky", "statement": "Once From or a join was called with an empty table name, every build fails whatever else is called, and the error lists exactly these calls in the order they were made. Calls without an empty table name record no error.", "quantifier": "every sequence of later calls", "why_tests_cant": "histories of calls", "anchors": ["sqlb/query_builder_errors.go", "sqlb/query_builder_join.go"]}
{"id": "C70", "title": "Every table stays addressable", "statement": "After any sequence of calls, each table given to From (last) or a join can be referenced by its alias (or name), and the reference resolves to that table.", "quantifier": "every sequence of builder calls", "why_tests_cant": "histories of calls", "anchors": ["sqlb/query_builder_join.go:From", "sqlb/query_builder_join.go:join"]}
{"id": "C71", "title": "All conditions restrict the query", "statement": "Every condition given to Where appears in the WHERE clause, in call order, joined by AND.", "quantifier": "every sequence of conditions", "why_tests_cant": "unbounded lists", "anchors": ["sqlb/query_builder_where.go:Where"]}
{"id": "C72", "title": "Conditions are combined as a conjunction", "statement": "The WHERE clause is the conjunction of the given conditions, whatever operators they contain.", "quantifier": "every sequence of conditions", "why_tests_cant": "operator precedence inside conditions", "anchors": ["sqlb/query_builder_where.go:Where"]}
{"id": "C73", "title": "Debug mode does not change the result", "statement": "Enabling Debug does not change query, arguments or success of a build.", "quantifier": "every query builder", "why_tests_cant": "rare queries", "anchors": ["sqlb/query_builder_build.go:buildInternal"]}
{"id": "C74", "title": "Joining a table again replaces it in place", "statement": "A second join under the same alias (not used by a From) replaces the first one at its position and leaves all other tables unchanged.", "quantifier": "every history of calls and every join", "why_tests_cant": "histories of calls", "anchors": ["sqlb/query_builder_join.go:join"]}
{"id": "C75", "title": "Select replaces, GroupBy and Where accumulate", "statement": "The last non-empty Select determines the selected columns; GroupBy, OrderBy and Where add to what was there; none of them affects the other clauses.", "quantifier": "every sequence of calls", "why_tests_cant": "histories of calls", "anchors": ["sqlb/query_builder.go", "sqlb/query_builder_where.go", "sqlb/query_builder_order.go"]}
{"id": "C76", "title": "BuildQuery of a query builder returns exactly the specified query", "statement": "BuildQuery of a QueryBuilder returns the document specified by its clauses: With, SELECT, FROM, WHERE, GROUP BY, ORDER BY, LIMIT, OFFSET, UNION, each made of the documents of its builders, with placeholders in place of the committed values; values are committed in the order CTEs, FROM, WHERE, GROUP BY, ORDER BY, SELECT, UNION; errors and panics occur exactly as specified.", "quantifier": "every query builder made by calls and builds from builders without user code, with query builders nested to any depth, both styles", "why_tests_cant": "unbounded nesting of queries and templates", "anchors": ["sqlb/query_builder_build.go:buildInternal", "fragment.go:BuildFragment", "build.go"]}
{"id": "C77", "title": "Subqueries in fragments are built as specified wherever they are used", "statement": "A fragment tree with query builders in it builds to its template with, in place of every reference, the specified query of the query builder, and shares one argument store with them.", "quantifier": "every tree of fragments without user code, with query builders nested to any depth, both styles", "why_tests_cant": "unbounded nesting of queries and templates", "anchors": ["sqlb/query_builder_build.go:BuildFragment", "fragment.go:BuildFragment", "build.go"]}
{"id": "C78", "title": "Dollar placeholders of queries resolve", "statement": "In a Dollar-style query of a QueryBuilder every placeholder $n has 1 <= n <= len(args), and the n-th argument is the value given at that place (or equal to it).", "quantifier": "every query builder made by calls and builds from builders without user code, nested to any depth; every builder without user code with such query builders in it", "why_tests_cant": "unbounded nesting of queries and templates, any values", "anchors": ["sqlb/query_builder_build.go:buildInternal", "context_args.go"]}
{"id": "C79", "title": "Argument values never enter the text of queries", "statement": "Giving other argument values (for the Dollar style: with the same equality pattern) in the calls that make the query builders leaves the text of the query unchanged; the arguments are the other values.", "quantifier": "every query builder made by calls from builders without user code, nested to any depth, and any replacement of values", "why_tests_cant": "all values and all queries", "anchors": ["sqlb/query_builder_build.go:buildInternal", "sqlb/query_builder_where.go", "context_args.go"]}
{"id": "C80", "title": "Both styles give the same query", "statement": "Building a QueryBuilder in the Question style and in the Dollar style gives the same kind of failure, or the same document with ? or $n in its marks, where $n refers to a value equal to the one at the ?.", "quantifier": "every query builder made by calls from builders without user code, nested to any depth; every builder without user code with such query builders in it", "why_tests_cant": "unbounded nesting of queries and templates, any values", "anchors": ["sqlb/query_builder_build.go:buildInternal", "context_args.go"]}
{"id": "C81", "title": "Every argument of a query has a placeholder", "statement": "In a QueryBuilder query of the Question style arguments and placeholders correspond one to one; in the Dollar style every argument has a placeholder.", "quantifier": "every query builder made by calls from builders without user code, nested to any depth; every builder without user code with such query builders in it", "why_tests_cant": "depends on all templates, clauses and nested queries", "anchors": ["sqlb/query_builder_build.go:buildInternal", "context_args.go"]}
{"id": "C82", "title": "Parse reads exactly the template language", "statement": "Parse accepts exactly the texts the one-pass reference reader of the template language accepts, and finds the same expressions in them.", "quantifier": "every byte string, well-formed or not, including NULs, unclosed quotes and invalid UTF-8", "why_tests_cant": "all byte strings; the scanner's tokens and the parser's state interact", "anchors": ["syntax/scanner.go:scanPlain", "syntax/scanner.go:scanFuncArgs", "syntax/parser.go:Parse", "syntax/lexer.go:Next"]}
{"id": "C83", "title": "Debug prints the query with its arguments", "statement": "A QueryBuilder with Debug prints, as the last line of a successful build, the query it returns with its arguments filled in (an empty line if they cannot be filled in). Builds in which no query builder has Debug print nothing.", "quantifier": "every query builder made by calls and builds, every context and memory, every builder", "why_tests_cant": "all builders, also user code, and all ways a build can end", "anchors": ["sqlb/query_builder_build.go:buildInternal", "util/interpolate.go:Interpolate"]}
{"id": "C84", "title": "User builders take part like built-in ones", "statement": "A FragmentBuilder of the user that builds another one with the context it was given and returns its result is interchangeable with it: the same text, arguments, errors and panics. Several builds of one user builder happen one after the other on the same arguments; CommitArg adds one value and gives its placeholder; Args gives what was committed so far.", "quantifier": "every builder, context and state; every user program made of builds, commits, reads of Args, returns, errors and panics", "why_tests_cant": "all user code, all contexts and all builders that may be wrapped", "anchors": ["sqlf.go:FragmentBuilder", "context.go:Context", "context_args.go:CommitArg"]}
{"id": "C85", "title": "Fragments do not interfere", "statement": "Making a fragment, or changing it by WithPrefix, WithSuffix, WithArgs, WithFragments, AppendArgs or AppendFragments, does not change any other fragment: after any calls each fragment has exactly the arguments and fragments that its own calls gave it, whatever capacity append gives to slices.", "quantifier": "every history of such calls, with listed and with spread (xs...) arguments, every growth policy of append", "why_tests_cant": "whether slices share memory depends on the history and on the capacities the Go runtime chooses", "anchors": ["fragment.go:AppendArgs", "fragment.go:AppendFragments", "fragment.go:WithArgs", "shortcut.go:Fa"]}
{"id": "C86", "title": "Query builders leave the given fragments unchanged", "statement": "Calls of a QueryBuilder do not change the fragments given to them, so that a fragment can be used in several places and several query builders; as long as a fragment is not changed after it was used, every query is the one that copies of the fragments would give.", "quantifier": "every program of calls that make and change fragments and query builders", "why_tests_cant": "all programs, all ways to share fragments", "anchors": ["sqlb/query_builder_join.go:join", "sqlb/query_builder.go:Select", "sqlb/query_builder_where.go:Where", "fragment.go:WithPrefix"]}
{"id": "C87", "title": "Positions point at what they are about", "statement": "Every expression of a parsed template has the line and column of the byte where its text begins, the expressions follow each other in the template without overlap, and a syntax error begins with the byte offset of what it complains about: the quoted literal, the unexpected token, or the end of the template. Lines and columns count characters, not bytes; a newline is column 0 of the line it begins.", "quantifier": "every template (any bytes, valid UTF-8 or not), accepted or rejected", "why_tests_cant": "all texts, all encodings, all mixtures of quotes, calls and newlines before the place", "anchors": ["syntax/lexer.go:Next", "syntax/pos.go:Pos", "syntax/scanner.go:emitToken", "syntax/parser.go:syntaxError", "syntax/nodes.go:Pos"]}
{"id": "C88", "title": "Builders can be built by several goroutines", "statement": "Goroutines that build the same query builders and fragments at the same time each return (and log) what they would have returned alone, whatever the schedule, and the builders give the same queries afterwards.", "quantifier": "every schedule, every number of goroutines, every builder (with user code) and set of shared query builders", "why_tests_cant": "the number of interleavings of the accesses is unbounded", "anchors": ["sqlb/query_builder_build.go:buildInternal", "sqlb/query_builder_build.go:buildSelects", "sqlb/query_builder_build.go:buildOrders", "build.go:BuildQuery"]}
{"id": "C89", "title": "Builds of different builders do not interfere", "statement": "Goroutines that share no query builder, directly or nested, do not influence each other: each returns and logs what it would alone, and finishes if it gets its turns. Building fragments needs no care at all.", "quantifier": "every schedule, every number of goroutines, every builder and user code, every memory", "why_tests_cant": "all interleavings of arbitrary builds", "anchors": ["build.go:BuildQuery", "context.go:NewContext", "sqlb/query_builder_build.go:BuildQuery", "func.go:addValueFuncs"]}
{"id": "C90", "title": "Builds have no data races", "statement": "Two goroutines that build never access the same field of the same query builder at the same time with one of them writing.", "quantifier": "every reachable state of every schedule of any number of builds", "why_tests_cant": "the race detector only sees the schedules that happen", "anchors": ["sqlb/query_builder_build.go:buildSelects", "sqlb/query_builder_build.go:buildOrders"]}
{"id": "C91", "title": "Lists shared by fragments", "statement": "A Properties list (of fragments or of arguments) given to ContextWithFuncs under a name means the same list in every fragment built with this context: #name(i) builds its i-th item there and then, an index outside it is ErrInvalidIndex with no effect, #join('#name', sep) builds all items in order and joins the non-empty ones, and, with Dollar, a list of arguments has the same placeholders wherever it is joined and is passed once.", "quantifier": "every list, index, context, separator and argument state, and everything committed between two uses", "why_tests_cant": "lists, indices, contexts and argument histories are unbounded", "anchors": ["properties.go:Properties.Build", "properties.go:NewFragmentProperties", "properties.go:NewArgsProperties", "property.go:defaultProperty", "contex_with.go:ContextWithFuncs"]}
{"id": "C92", "title": "ScanBuilder and CountBuilder send exactly the built query", "statement": "ScanBuilder sends exactly the query and arguments BuildQuery returns, once; CountBuilder sends SELECT COUNT(1) FROM (query) list with the same arguments, once. Their results depend on the database only through its answer to it. If building fails, nothing is sent and the same error is returned.", "quantifier": "every builder, style, database and destination", "why_tests_cant": "builders and databases are unbounded", "anchors": ["util/scan.go:ScanBuilder", "util/scan.go:CountBuilder"]}
{"id": "C93", "title": "Columns and tables are built to their names", "statement": "NewTable(name).Column(c) and NewTable(name, alias).Column(c) build to the qualified name applied.c, AnonymousColumn(c) to the name c, the table itself to its applied name, Columns(c1, ..., cn) to the list in that order; WithAlias(a) gives the table with the alias a in place of the one it had; ExprColumns(f1, ..., fn) are built as the fragments are, in that order, and to nothing for a nil one; columns that are names, and tables, take no arguments and have no effect.", "quantifier": "every table, alias, column name and list of names, every context and state", "why_tests_cant": "names, lists and contexts are unbounded", "anchors": ["sqlb/table.go:Table.Column", "sqlb/table.go:Table.Columns", "sqlb/table_aliased.go:TableAliased.Column", "sqlb/table_column.go:Column.BuildFragment"]}
{"id": "C94", "title": "What refers to no query builder only adds arguments", "statement": "Building anything that refers to no query builder changes nothing but the argument list, prints nothing, and its outcome depends only on the arguments committed so far; BuildQuery of it always returns the same, whatever was built before. The trial call by which #join tests a function has always the same outcome and no effect.", "quantifier": "every builder (templates, custom fragments and functions included), context, state and memory of query builders", "why_tests_cant": "builders, contexts and what happened before are unbounded", "anchors": ["build.go:Fragment.BuildFragment", "func.go:funcInfo.JoinCompatibilityError", "func.go:joinCompatibility", "context.go:Context"]}
{"id": "C95", "title": "Errors say where and why a build failed", "statement": "When a build fails with an error, the error, read from the outside in, names the templates, the functions, the CTEs and the tables on the way to one place in what was built, and the reason it ends with is true of that place: the template does not parse; the argument or fragment with that index does not exist; the function with that name is not registered, gets a wrong number of arguments or a literal of a wrong type; the #join has a reversed range, too many indexes, no function or one that cannot be joined; that argument or fragment was not used; the table with that name is not in the query; nothing is selected; or user code or a panic was the cause.", "quantifier": "every builder (templates, custom fragments, query builders), every context whose functions were registered with ContextWithFuncs, every state", "why_tests_cant": "builders nest to any depth, with any number of levels of wrapping, and contexts are unbounded", "anchors": ["build.go:Fragment.BuildFragment", "build.go:buildClause", "func_exec.go:evalCall", "func_builtin.go:funcJoin", "func_builtin.go:funcArgument", "func_builtin.go:funcFragment", "sqlb/query_builder_build.go:QueryBuilder.buildCTEs", "sqlb/query_builder_build.go:QueryBuilder.buildFrom", "sqlb/query_builder_dependecy.go:QueryBuilder.collectDependencies"]}
{"id": "C96", "title": "A query that was built can be interpolated", "statement": "Interpolate, given a query and the arguments BuildQuery returned with it, returns a text or an error and does not panic; and if the database fails to count the rows of a built query, CountBuilder returns that error, wrapped with the query it sent with its arguments filled in.", "quantifier": "every builder without user code (query builders included), both styles, every database", "why_tests_cant": "builders, values and database errors are unbounded; the error path is rarely exercised", "anchors": ["util/interpolate.go:Interpolate", "util/scan.go:CountBuilder", "util/scan.go:Count", "build.go:Fragment.BuildFragment"]}
{"id": "C97", "title": "Argument values influence nothing but the argument list", "statement": "Giving other argument values, in fragments, in the calls that make query builders, and in custom builders and functions that do not look at them, changes nothing about BuildQuery except the argument list, where the other values stand in the places of the former ones: the query text is the same, an error is the same error, a panic is the same panic. So no value is ever seen in an error. In the Dollar style the other values are equal to each other where the former ones were. The same holds for every later build.", "quantifier": "every builder with user code and query builders, every relation between values, both styles, every series of builds", "why_tests_cant": "values, builders and user code are unbounded; it is a statement about pairs of executions", "anchors": ["build.go:Fragment.BuildFragment", "build.go:buildClause", "context_args.go:dollarArgStore.CommitArg", "context_args.go:questionArgStore.CommitArg", "func_exec.go:evalCall", "sqlb/query_builder_build.go:QueryBuilder.buildInternal"]}
{"id": "C98", "title": "Equal parts are interchangeable", "statement": "If builders inside a builder (in the fragments of templates, in expression columns, in what custom builders and functions build, in the calls that made its query builders) are replaced by builders that build to the same in every context and refer to the same tables, BuildQuery returns the same as before, for this build and for every later one. In particular a fragment that is one argument can be written with ? or $1, or be replaced by a custom builder that commits the value; plain text by a custom builder that returns it; a column without table by its expression; and a builder that refers to no table can be wrapped in a custom builder that does nothing but build it.", "quantifier": "every builder with user code and query builders, every set of replacements, both styles, every series of builds", "why_tests_cant": "it is a statement about pairs of executions of all builders, at any depth, with any replacement in any context", "anchors": ["build.go:Fragment.BuildFragment", "build.go:buildClause", "func_builtin.go:funcFragment", "func_builtin.go:funcJoin", "sqlf.go:FragmentBuilder", "sqlb/query_builder_build.go:QueryBuilder.buildInternal", "sqlb/query_builder_dependecy.go:QueryBuilder.collectDependencies", "sqlb/query_builder_dependecy.go:extractTables"]}
{"id": "C99", "title": "The placeholder style decides nothing but how placeholders are written, user code included", "statement": "If all values can be map keys and the custom builders and functions do not look at placeholders (they may put the texts they get into other texts, but take the same steps whatever the placeholders in them are and whatever the arguments so far are), then BuildQuery in the Question style and in the Dollar style have the same outcome: the same error, the same panic, or the same query but for its placeholders, where the $n in place of a ? refers to an argument equal to the one the ? stands for, and the Dollar arguments are the Question arguments without repetitions. The same holds for every later build with the same query builders. Builders without user code never look at placeholders.", "quantifier": "every builder with user code and query builders (CTEs, unions, subqueries, conditions with user code), every series of builds", "why_tests_cant": "it relates two executions of every builder, with arbitrary user code, at any depth", "anchors": ["context_args.go:Context.CommitArg", "context_args.go:questionArgStore.CommitArg", "context_args.go:dollarArgStore.CommitArg", "build.go:Fragment.BuildFragment", "build.go:buildClause", "func_builtin.go:funcJoin", "func_exec.go:evalCall", "sqlf.go:FragmentBuilder", "sqlb/query_builder_build.go:QueryBuilder.buildInternal"]}
{"id": "C100", "title": "Interpolate's options change how times are written and nothing else", "statement": "Of several WithTimeFormat options the last one counts, and without one times are written in RFC 3339. With another format the same calls of Interpolate fail, with the same error or panic, and the texts of the others differ in the non-zero time values only; without such a value among the arguments the options make no difference.", "quantifier": "every query, argument list and list of options", "why_tests_cant": "all queries and values, including values behind driver.Valuer", "anchors": ["util/interpolate.go:Interpolate", "util/interpolate.go:WithTimeFormat", "util/interpolate.go:applyInterpolateOptions"]}
{"id": "C101", "title": "The position in a message identifies the place", "statement": "Two positions of expressions that are written alike are the same position, and every expression of an accepted template has a known position: its text is never \"<unknown position>\".", "quantifier": "every template and all positions", "why_tests_cant": "all templates and all pairs of positions", "anchors": ["syntax/pos.go:String", "syntax/nodes.go:Pos", "build.go:buildClause"]}
{"id": "C102", "title": "BuildQuery called by user code stays apart from the query around it", "statement": "A custom builder or function may call BuildQuery while it is being built: it gets what BuildQuery returns anywhere else for the builders as they are, and the arguments and the usage checks of the query around it do not notice. In particular the arguments of the inner query are not arguments of the outer one and numbers of placeholders start over; where placeholders are ?, committing these arguments by hand gives exactly the text and arguments of building in the context.", "quantifier": "every builder, context, state of the outer build, style and continuation of the user code", "why_tests_cant": "all nestings of builds and all states in which the inner one can start", "anchors": ["build.go:BuildQuery", "context.go:NewContext", "sqlb/query_builder_build.go:BuildQuery", "context_args.go"]}
{"id": "C103", "title": "Goroutines that make and build their own queries do not disturb each other", "statement": "If every query builder belongs to one goroutine, which alone changes it, builds it or uses it in others, then the goroutines may make, change and build their query builders at the same time, in any order and as often as they like: each gets from all its calls what it would have got if nothing else ran, and there are no data races.", "quantifier": "every number of goroutines, every list of calls and builds of each (with user code), every memory and every schedule", "why_tests_cant": "the interleavings of arbitrary programs are unbounded, and the race detector sees only the schedules that happen", "anchors": ["sqlb/query_builder.go:NewQueryBuilder", "sqlb/query_builder.go:Select", "sqlb/query_builder_join.go:join", "sqlb/query_builder_where.go:Where", "sqlb/query_builder_with.go:With", "sqlb/query_builder_build.go:BuildQuery"]}
{"id": "C104", "title": "Interpolated texts stay inside their string literals", "statement": "If some of the texts among the arguments (strings, Stringers, or Valuers that give one of these) are exchanged for other texts, Interpolate still succeeds and the two queries are the same outside of their string literals '…': no text, whatever quotes and markers it contains, can end its literal or change the rest of the query. (Provided that floats and times are written without quotes; SQL dialects in which a backslash escapes a quote are not considered.)", "quantifier": "every query, every two lists of arguments that differ in texts only, every format of times without a quote", "why_tests_cant": "injection is about every text an attacker may choose and every query it may be put into, also next to other literals and quoted names", "anchors": ["util/interpolate.go:Interpolate", "util/interpolate.go:encodeValue", "util/interpolate.go:quoteStringValue", "syntax/scanner.go:scanQuotedPlain"]}
{"id": "C105", "title": "An interpolated query has nothing left to fill in", "statement": "A query returned by Interpolate contains no placeholder, function call or syntax error any more, whatever the arguments contain: interpolating it again with any arguments returns it unchanged (up to a NUL that came with an argument).", "quantifier": "every query and arguments that can be interpolated, every second list of arguments and options", "why_tests_cant": "arguments with quotes, ?, $1, ## or #func( next to any kind of text in the query", "anchors": ["util/interpolate.go:Interpolate", "util/interpolate.go:encodeValue", "util/interpolate.go:quoteStringValue", "syntax/parser.go:Parse"]}
{"id": "C106", "title": "ScanRow leaves the caller's slices alone", "statement": "Scan and ScanRow assign a row to the given destinations and drop the columns for which there are none. The slice of destinations passed as dest..., and every other slice over the same array, hold the same destinations afterwards, so that slices of destinations can be used again for the next row or share an array.", "quantifier": "every array and slices of it with any offset, length and capacity, every number of columns, rows and destinations, every growth policy of append", "why_tests_cant": "whether an append writes into the caller's array depends on the capacity and on the other slices of the array", "anchors": ["util/scan.go:ScanRow", "util/scan.go:Scan"]}
{"id": "C107", "title": "A query builder does not depend on what happens to the caller's slices later", "statement": "Select, GroupBy, Union and With may be called with slices (columns...): the query builder then has the elements at the time of the call. Assigning to elements of these slices, or to the rest of their arrays, at any time, and using the same slice in several calls, does not change the query, and the calls do not change the slices.", "quantifier": "every history of making arrays, assigning to their elements and calling the methods of a query builder with any slices of them, every growth policy of append", "why_tests_cant": "unbounded histories; aliasing depends on capacities", "anchors": ["sqlb/query_builder.go:Select", "sqlb/query_builder.go:GroupBy", "sqlb/query_builder.go:Union", "sqlb/query_builder_with.go:With", "sqlb/util.go:convertFragmentBuilders"]}
{"id": "C108", "title": "The arguments of one query are not those of another", "statement": "The list of arguments that BuildQuery returns belongs to the caller: assigning to its elements or appending to it never changes the arguments of another query, nor of a context that is still in use, and no later build changes it.", "quantifier": "every history of contexts, committed values, lists returned by Args or BuildQuery, assignments to and appends to these lists, every growth policy of append", "why_tests_cant": "unbounded histories; whether two lists share an array depends on the capacities append has chosen", "anchors": ["context_args.go:Args", "context_args.go:CommitArg", "context.go:newEmptyContext", "build.go:BuildQuery", "sqlb/query_builder_build.go:BuildQuery"]}
{"id": "C109", "title": "Context.Args returns a snapshot", "statement": "The list that ctx.Args() returns holds the arguments committed until then, whatever is committed later; and the caller may change it and append to it without changing the arguments of the context.", "quantifier": "every history of commits, calls of Args and changes of the returned lists, every growth policy of append", "why_tests_cant": "whether a change reaches the context depends on capacities and on the order of appends", "anchors": ["context_args.go:Args", "context_args.go:CommitArg"]}
{"id": "C110", "title": "ArgsFlatted returns a list of its own", "statement": "The list that ArgsFlatted returns shares no memory with the slices it was given: ArgsFlatted changes none of the caller's slices, whatever the caller later assigns or appends to the list is not seen in a slice they had before, and whatever they assign or append to such a slice is not seen in the list. What it returns is the same as if slices were values, also if one slice is given twice or has spare capacity.", "quantifier": "every list of arguments, every memory of []any slices with any offsets, lengths and capacities (overlapping ones included), every growth policy of append, every later assignment or append", "why_tests_cant": "a []any is handed on without being copied, so whether the result is separate depends on capacities and overlaps, of which there are unboundedly many", "anchors": ["util/args.go:ArgsFlatted", "util/args.go:argsFrom", "util/args.go:Ttoa", "util/args.go:convertArrayReflect"]}
{"id": "C111", "title": "Used says which properties were asked for", "statement": "For a list made by NewArgsProperties or NewFragmentProperties, Used of a property is true if and only if, at some time before, Build was called with its index, or its BuildFragment or ReportUsed was called, no matter what these calls returned. Build of an index in range builds the value given for it, any other index is ErrInvalidIndex and marks nothing. Asking Used and calling ReportUsed changes no build.", "quantifier": "every list of values, every history of Build, BuildFragment, ReportUsed and Used calls (builds that fail or panic included), every state of the argument store and the query builders", "why_tests_cant": "the flag depends on the whole history of calls, and failing and panicking builds count too; tests look at a few histories", "anchors": ["property.go:Property", "property.go:defaultProperty", "properties.go:Properties.Build", "properties.go:NewArgsProperties", "properties.go:NewFragmentProperties"]}
{"id": "C112", "title": "A function gets exactly what the call writes", "statement": "Calling a function of the context from a template, with as many literals as it has parameters and each of the kind of its parameter, runs the function exactly once, with the context of the template and with the values that are written (strings with doubled quotes undone, numbers converted to the parameter's type, the rest collected for a variadic parameter). The text that it returns takes the place of the call (nothing for a function without results); its error or panic becomes the error of the build, wrapped with the name of the function.", "quantifier": "every accepted signature (with and without context, variadic or not), every list of fitting literals, every function body (including ones that commit arguments, build other fragments, fail or panic), every context and state", "why_tests_cant": "signatures, argument lists and function bodies are unbounded; the values go through reflection, whose conversions differ by kind and by whether a type is predeclared or defined", "anchors": ["func_exec.go:evalCall", "func_exec.go:evalArg", "func_exec.go:safeCall", "func.go:goodFunc", "context_func.go:ContextWithFuncs"]}
{"id": "C113", "title": "#join judges a function as it is", "statement": "Whether #join accepts a function (it reports ErrInvalidIndex for the index zero, and no other error or text) is decided by what the function does when #join is used. Within one context the function is called for this test at most once, and two uses of #join get the same answer about it.", "quantifier": "every function, every sequence of uses of #join with one context, with anything done in between", "why_tests_cant": "the answer is kept with the function, so that it depends on the whole history of the context; functions, histories and states are unbounded", "anchors": ["func.go:JoinCompatibilityError", "func.go:joinCompatibility", "func_builtin.go:funcJoin"]}
{"id": "C114", "title": "Building queries returns", "statement": "BuildQuery and BuildFragment return (a query, an error or a panic) for every fragment, column, query builder and piece of user code, as long as no query builder contains itself (as CTE, in a union, a condition or anywhere else) and the functions added to contexts build nothing themselves and, if #join accepts them, run out of items; afterwards they can be built again. Each condition is needed: a query builder that is its own CTE, a #join over a function that gives a text for every index, and a function that builds a call of itself never return.", "quantifier": "every builder, every template (with #join nested in its string arguments), every set of query builders that refer to each other without cycles, every nesting depth, every user code over the API, contexts with any layers of such functions", "why_tests_cant": "termination is not observable by a finite test suite; #join loops until a function reports an invalid index, templates nest in strings, query builders and user code nest in each other", "anchors": ["build.go:BuildQuery", "func_builtin.go:funcJoin", "sqlb/query_builder_build.go:buildInternal", "sqlb/query_builder_build.go:buildCTEs", "sqlb/query_builder_build.go:buildUnion"]}
{"id": "C115", "title": "Programs end", "statement": "A program that calls methods of query builders and builds queries, in any order and any number, ends: each call returns or panics, and each build returns or panics, when it never puts a query builder into one that it contains and the functions it adds to contexts build nothing and run out of items. Goroutines with such programs that change only their own query builders and share others that none changes all end under every fair schedule, and show what their programs show alone.", "quantifier": "every number of query builders, every list of calls and builds with every argument (fragments, columns, user code, other query builders, in every depth), every number of goroutines, every fair schedule", "why_tests_cant": "termination for all programs and all fair schedules; builds change the query builders, so that the condition has to survive every build and every call", "anchors": ["sqlb/query_builder_build.go:buildInternal", "sqlb/query_builder.go:QueryBuilder", "build.go:BuildQuery", "func_builtin.go:funcJoin"]}
{"id": "C116", "title": "A nil context is refused", "statement": "BuildFragment(nil) of a fragment or a column returns the error \"nil context\" and changes nothing. A query builder never gives a text for a nil context, whatever it contains; if it can be built with some context without a panic, and no CTE is user code, it returns an error and is left as it is. Only tables (their name or alias), nil pointers (the empty text) and user code can give a text. Where no user code is involved nothing is changed: no query builder, no argument list, no log.", "quantifier": "every builder, every fragment, every query builder with any CTEs (query builders among them, in every depth), every state", "why_tests_cant": "query builders build their CTEs and tables before the first fragment that checks the context; contents, nesting and states are unbounded", "anchors": ["build.go:BuildFragment", "sqlb/query_builder_build.go:buildInternal", "sqlb/query_builder_build.go:buildCTEs", "sqlb/table_column.go:BuildFragment", "sqlb/table.go:BuildFragment", "context_args.go:CommitArg"]}
{"id": "C117", "title": "A refused function map adds nothing", "statement": "If ContextWithFuncs returns an error, the context returned with it has no function of the map; the error names an entry of the map that is not allowed. Names that are not in the map, and those of entries that are not allowed, mean in it what they meant in the given context, and any function of the map in it is an allowed one, as it was given.", "quantifier": "every context, every function map with any number of entries, every iteration order of the map", "why_tests_cant": "Go visits the entries of a map in any order, so that a test sees one of many results; maps, signatures and contexts are unbounded", "anchors": ["context_func.go:ContextWithFuncs", "contex_with.go:contextWith", "func.go:addValueFuncs", "func.go:goodFunc"]}
{"id": "C118", "title": "Goroutines may commit values to one context", "statement": "If several goroutines call CommitArg of one context, then, once all calls have returned, each got from its calls the placeholders it would have got if the calls had been made one after the other in some order, and the context has the arguments of these calls: none is lost and different values have different $ placeholders.", "quantifier": "every number of goroutines, all values they commit, every schedule of the steps of their calls, every context with any arguments, both bindvar styles", "why_tests_cant": "the number of schedules is unbounded, and the ones that go wrong are rare", "anchors": ["context_args.go:CommitArg", "context_args.go:Args", "context.go:root"]}
