# Formal model of syncany-sql: design

What is modelled, how each property of `properties.jsonl` is proved, what is trusted, and where the code was found to disagree with a
property.

## Trusted base

* **Lean 4.33.0's kernel.** No axiom of our own, no compiled-code tactics (`native_decide`, `bv_decide`). `#print axioms` shows, for
  every theorem of `MANIFEST.json`, at most `propext`, `Classical.choice` and `Quot.sound`.
* **The reading of the Python text.** The model is tied to the code by the citations (file and lines) in front of the definitions.
  Nothing is executed. Simplifications are stated in the comment of the definition or in the head of the model file.
* **Third-party code** is not in /repo: `sqlglot` (SQL text to trees and back), `syncany` (loaders, outputers, valuers, the row
  pipeline, the memory database), database drivers. Where the model needs one of their behaviours it is a parameter, or a small
  definition whose assumption is listed below.

### Assumed of the syncany library

| behaviour | used by |
|---|---|
| order of a run: `querys` at the source, `orders`, `@limit`, `predicate`, columns, `intercept`, pipelines | C46, C55, C57-C59, C65 |
| `@limit n` reads at most `n` rows (0: all); `@array::slice` is Python's `rows[a:b]`; `@sort` and the load order are stable | C46, C55 |
| the data source compares as SQL does (`Faithful`) | C42, C43, C57-C59, C65 |
| `#if`, `#case` take the branch by Python's truth of the condition | C31 |
| `#aggregate key calc` keeps one row per key, in order of first appearance, folding `calc` from `None`; `use I` appends, `use DI` replaces | C21, C58-C60 |
| `#partition`: rows collected by key, sorted stably, the calculater called row by row, values put back into their rows (as tests/test_example_window_aggregate.py expects) | C23-C26, C65 |
| a joined table with one row per key (several rows per key are the library's) | C44, C45, C53, C54, C122, C132, C133 |
| `$`-prefixed columns look one scope up per `$` | C44 |
| `CoreTasker.DEFAULT_CONFIG` is a parameter | C14-C16, C117, C118 |
| memory database: insert appends, query returns in order, delete removes all | C56 |
| exceptions inside a function become NULL (mysql_calculater.py is in /repo and modelled; the call itself is the library's) | C27 ff. |
| `typing_filter` returns the function it is given; a calculater is created once for each use and called once for each row | C140-C143 |

### Assumed of sqlglot

The trees of the constructs listed in `Model/Expr.lean` (and of ON, FROM, ORDER BY, OVER) are taken as input; text that the code
generates and parses again (RIGHT JOIN, multi-table FROM rewriting) is taken to round-trip, except where precedence is at stake
(`onText` in `Model/RightJoin.lean`).

## Modelling conventions

* Python `str` is `List Char`; `int` is `Int`; `float` and `Decimal` are exact rationals (`Rat`): rounding, NaN and infinities are not
  modelled, nor is the difference between the two types.
* Exceptions are values (`Option`, `Except`), mutation returns the new value, loops are structural or well-founded recursion (so Lean's
  termination check is a termination proof of the loop), or take fuel when the code may not terminate (RIGHT JOIN).
* Python dicts are association lists in insertion order with update in place.
* Unicode classification (`str.isalpha`, `str.isdigit`) is a parameter or the ASCII one, said at each use.
* Aliasing of mutable values: JSON documents updated in place are modelled in `JsonHeap` only, sharing between session configurations in `Config`; elsewhere values are immutable.
* `Verif/Model`: the code. `Verif/Spec`: what the properties mean, as small separate definitions. `Verif/Proofs`: lemmas.
  `Verif/Props`: property theorems, with examples that meet their hypotheses.

## What is modelled

| file in /repo/syncanysql | modelled in | not modelled |
|---|---|---|
| parser.py | `Parser` (SqlSegment, SqlParser.split, next/skip functions) | FileParser's file access |
| executor.py | `Env` (EnvVariables, compile_variable), `Executor` (queue, run, execute), `RawSql` (raw blocks), `Globals` (global variables, options), `Engine` (task numbers) | threads (signals: `Stop`) |
| `__init__.py` | `Engine`, `Env` | module-level singletons beyond one engine |
| config.py | `Config` (merge, sessions, caches, SET of keys), `Load` (files, extends, databases, scripts), `View` (parameters of virtual views) | parsing of files (parameter), logging, time zone, sys.path |
| main.py, prompt.py | `Engine` (`main`), `Prompt` (loop of the prompt), `Parser` (when the prompt submits), `History` (the history file) | key bindings, rendering |
| compiler.py | `Mapping` (parse_mapping, to_sql), `Expr` (compile_calculate, compile_having_condition), `Where` (compile_where_condition, compile_delete), `Join` (join chains, ON, INNER JOIN, FROM lists), `RightJoin`, `Order`, `Limit` (LIMIT, UNION), `Select` (compile_select, GROUP BY, DISTINCT), `JoinSelect` (compile_select with LEFT JOINs), `JoinInner` (optimize_rewrite_inner_join), `WinSelect` (window columns), `Column` (type annotations, casts), `WhereAlias` (names in WHERE), `SetOp`, `Literal` (constants, INSERT VALUES), `Table` (parse_table), `Correlated` (parse_subquery, compile_query_condition), `Cte` (compile_with), `AggExpr` (expressions around aggregates), `SelectList` (names, `*`) | yield functions |
| taskers/query.py | `Reduce` (batches), `TempMem` (temporary collections), `Tasks` (start, run, dependencies, failures, clean-up), `WinSelect` (two stages) | progress, statistics, compile_distinct_config (unreachable) |
| taskers/into.py, set.py, delete.py, use.py, show.py, execute.py, explain.py | `Into`, `Value`/`Executor`, `Where`, `Command` | printing |
| calculaters/aggregate_calculater.py, window_calculater.py | `Aggregate`, `Window` | |
| calculaters/mysql_funcs | `Scalar`, `Greatest`, `Str`, `Regexp`, `Encode`, `Json`, `JsonHeap`, `JsonText` (json.dumps and json.loads of the standard library written out), `Date`, `Calendar`, `Call` (mathematical functions) | the functions of Python's math (arbitrary partial functions), random numbers, time zones, parse_datetime |
| calculaters/env_variable_calculater.py; `@v`, `@v := e` in compiler.py | `UserVar` | assignments inside aggregates |
| calculaters/row_calculater.py | `RowCalc` | |
| compiler.py: `compile_subquery`, `compile_union`, `compile_with` as a whole | `Nest` | joins and recursion inside; `compile_pipleline_select` |
| compiler.py: the same with joins (`parse_joins`), comma lists and windows in every SELECT | `Tree` | recursion; RIGHT JOIN |
| compiler.py: `compile_insert_into` with SELECT | `Insert` | |
| compiler.py: `optimize_rewrite_multi_select` as a whole | `FromList` | the printed and re-parsed SQL text |
| compiler.py `parse_subquery` with DISTINCT, GROUP BY, HAVING, ORDER BY | `CorrSub` | columns of the outer query in these clauses |
| executor.py `run`/`execute` for scripts of SELECT, INSERT, DELETE, SET on memory tables | `Session`, `VarScript` (variables, SELECT INTO) | streaming; contexts with parents (Env) |
| taskers/query.py `run`, `run_yield`, `run_tasker` while `@streaming` | `Streaming` | several statements at once (Executor); where the library's tasks yield is a parameter |
| executor.py `terminate` and the `terminate` methods of the taskers; main.py:31-33 | `Stop` | what the library does in `CoreTasker.terminate` (assumed: SystemError at the next step) |
| compiler.py: keys of a SELECT (`seted_primary_keys`, `outputer_primary_keys`) | `Keys` | the key by which the library reads |
| compiler.py: uncorrelated subqueries in WHERE (`compile_query_condition`) | `SubOperand`, `HavingSub` | subqueries inside expressions and in ON; delivery of the rows by the library |
| compiler.py: kinds of select columns (`is_column`, `is_const`, `is_calculate`, `is_aggregate`, `parse_aggregate`, `parse_window_aggregate`) | `ItemKind` | the parser that makes the trees (sqlglot) |
| compiler.py: `compile_pipleline_select`, `parse_calculate` (columns), GET_VALUE | `Whole`, `GetValue` | the functions called; how the library reads paths |
| datetime_funcs.py: functions of the clock | `Clock` | Python’s clock and the zone database |
| query.py start/compile_reduce_config, into.py, query_tasker_calculater.py: queries of two passes and their readers | `SecondPass` | the rows the passes compute (other modules) |
| compiler.py `parse_table` of variables, query.py `compile_tasker`/`execute_updater` | `TableVar` | the query itself |
| compiler.py: `_parse_limit`, `_parse_offset`; calls of aggregates | `LimitParse`, `AggCall` | the library parser; lists and dictionaries inside COUNT(DISTINCT a, b) |
| calculaters/mysql_calculater.py, utils.py | `Call` (calls, defaults, registration), `Scalar` (error wrapper), `Value` (conversions) | |

## Plan per property

* **C01 Script splitting recovers every statement** (proved) — Model `split` as a zipper scanner (reversed prefix, rest, line number); spec: an independent grammar of statements (plain chars / terminated literals). Proof: induction over tokens and statements.
* **C02 Split segments are located substrings with right line numbers** (proved) — Invariant over the scanner loop (index, line number, start offset) proved by functional induction on the loop.
* **C03 Comments are inert** (partial) — Negations with witnesses (`decide`), plus `_partial` theorem for comments without quote characters.
* **C04 Splitting terminates and fails only on unterminated text** (proved) — Well-founded recursion of the model is the termination proof; error characterisation by functional induction.
* **C05 Quoted literals end exactly at the first unescaped matching quote** (proved) — Spec: least position whose preceding backslash run is even. Induction on the text.
* **C06 Back-quoted identifier rewriting is invertible** (proved) — Model `parse_mapping`/`to_sql` over the scanner, uuid supply as an injective parameter; induction over segments.
* **C07 Variable substitution replaces every placeholder by its current value and nothing else** (partial) — Model the regex search by a deterministic scanner and `str.replace`; prove substitution for environments whose values carry no '$'; negation witness for re-interpretation.
* **C08 Variable lookup follows the context chain** (proved) — Env chain as list of maps; spec: first map in the chain that has the key; induction on chain.
* **C09 Contexts are isolated and read their own writes** (proved) — Tree of contexts, write history; invariant + refinement to map (context, key) -> last write.
* **C10 Queued statements run once, in submission order** (proved) — Executor queue as state machine; induction on queue.
* **C11 A failed statement stops the script** (proved) — Same state machine; negation witness, partial theorem for a single call.
* **C12 SET takes effect in statement order** (partial) — Same state machine with env; negation witness; partial theorem for scripts without SELECT INTO.
* **C13 SELECT ... INTO stores the shape promised by the result** (proved) — Model IntoTasker.run on rows; theorem per shape.
* **C14 Session configuration precedence** (proved) — Model config layers as association lists; merge as in code; precedence lemma per key class.
* **C15 Configuration merging is idempotent and right biased** (proved) — Algebra of merge on association lists.
* **C16 Configuration reads see earlier configuration writes** (proved) — State machine with caches; negation witness; partial for root sessions.
* **C17 Aggregates compute the SQL value** (proved) — Aggregate folds vs spec on filtered list; induction.
* **C18 AVG ignores NULL** (partial) — Negation witness; partial: no NULL after first non-NULL; exact formula of what is computed.
* **C19 Aggregates do not depend on row order** (proved) — List.Perm invariance of the folds.
* **C20 Partial aggregates combine to the whole aggregate** (proved) — Homomorphism lemmas fold/append; negation for JSON_OBJECTAGG.
* **C21 Batch size does not change grouped results** (proved) — State machine of ReduceHooker + store; invariant: merged store = grouped prefix; for any monoid-like aggregate.
* **C22 Temporary collections are released exactly after their last reader** (proved) — Ref-count state machine vs multiset spec.
* **C23 Offset window functions select the right row** (proved) — Direct model of window calculators on lists; theorem by positions.
* **C24 NTILE partitions rows in n ordered buckets** (proved) — Integer arithmetic on idx*n/len.
* **C25 RANK and DENSE_RANK** (partial) — Negation, closed formula of what is computed, partial for at most two runs.
* **C26 PERCENT_RANK and CUME_DIST** (partial) — Negation, closed formula.
* **C27 NULL operands give NULL** (proved) — Value universe V; each function; case analysis.
* **C28 Comparison operators are coherent** (proved) — Case analysis on V; negation for mixed types.
* **C29 IN is the three-valued disjunction of equalities** (proved) — Induction on list vs 3VL spec.
* **C30 Integer arithmetic obeys the division identity** (proved) — Int lemmas.
* **C31 Boolean connectives implement SQL filtering logic** (partial) — Expression trees, induction.
* **C32 Substring functions** (proved) — List slice lemmas.
* **C33 String search functions locate what they report** (proved) — Induction on lists.
* **C34 SUBSTRING_INDEX** (proved) — split/join lemmas; negation.
* **C35 CONCAT, REPEAT, REVERSE, REPLACE, INSERT, TRIM, STRCMP laws** (proved) — List lemmas.
* **C36 LIKE matches the whole string** (partial) — Regex fragment matcher vs recursive LIKE spec; negation + partial.
* **C37 JSON_SET then JSON_EXTRACT** (partial) — JSON tree induction on path.
* **C38 JSON_REMOVE removes only the addressed member** (partial) — JSON tree; negation + partial.
* **C39 JSON_CONTAINS, JSON_DEPTH, JSON_LENGTH** (proved) — JSON tree induction.
* **C40 Month arithmetic** (proved) — Proleptic Gregorian month table; integer arithmetic.
* **C41 Time of day and difference functions** (proved) — Integer arithmetic.
* **C42 WHERE push-down keeps exactly the selected rows** (partial) — Expression trees; split function; induction.
* **C43 DELETE never deletes a row the WHERE clause does not select** (partial) — Corollary of the pushdown theorem.
* **C44 Join dependencies are loaded before their dependants** (proved) — Graph with rank function; invariant of the level-wise worklist.
* **C45 Inner join rewriting** (partial) — Relational semantics of left join + filter on lists of rows.
* **C46 LIMIT and OFFSET** (proved) — List take/drop.
* **C47 UNION aligns columns by position** (partial) — List of branches; induction.
* **C48 SET values and literals are typed consistently** (proved) — Char-list scanners.
* **C49 Interactive completeness check** (proved) — Scanner lemma shared with C05.
* **C50 Numeric coercion of strings** (proved) — Char-list scanners.
* **C51 FLOOR, CEIL, ROUND, ABS, SIGN** (proved) — Exact rationals; case analysis on the value; negation for one-argument ROUND.
* **C52 Calendar fields** (proved) — Day numbers of the proleptic calendar; integer arithmetic; deviations as witnesses.
* **C53 ON conditions are honoured** (partial) — `parse_on_condition` on expression trees; induction on the conjuncts; relational spec of ON.
* **C54 Comma-separated FROM** (partial) — Fold over the FROM list into joins; nested-loop spec; induction on the list.
* **C55 ORDER BY sorts the result by its keys, stably** (partial) — Two stable sorts (load order, result sort) against a lexicographic, stable spec; lemmas on insertion sort.
* **C56 Life of an engine: init files, memory tables, contexts** (proved) — Engine life as a state machine over histories of API calls; refinement of the memory tables to name -> last pushed rows.
* **C57 SELECT without grouping returns SQL's result** (partial) — compile_select as a composition of C31, C42, C46, C55; spec `RowResult`; commutation of sort, filter and map.
* **C58 SELECT with aggregates or GROUP BY returns SQL's result** (partial) — The same with grouping: `Reduce` (C21) supplies the groups of every batch division; spec `GroupResult`.
* **C59 SELECT DISTINCT returns every row once** (partial) — DISTINCT as grouping by all columns; spec: every row once.
* **C60 Memory of batched aggregation is bounded by the groups** (proved) — Invariant of the reduction machine: rows held <= batch bound + number of groups.
* **C61 Command line** (proved) — Decision table of `main` over arguments and terminal state; case analysis.
* **C62 Task numbers are consecutive** (proved) — Counter at the root of the executor tree; invariant over histories.
* **C63 RIGHT JOIN returns SQL's result** (partial) — Rewriting as a function on queries, its run, and the relational spec of RIGHT JOIN; loop modelled with fuel, non-termination proved for every fuel.
* **C64 JSON_OBJECTAGG and JSON_ARRAYAGG** (proved) — Fold of dictionary updates against first-occurrence/last-value spec; induction on the list from the right.
* **C65 A SELECT with window functions returns SQL's result** (partial) — Window columns as partition tables; sorted partitions as lists of positions; hidden columns and two stages as an inductive compilation relation; composition with C31, C42, C46, C55.
* **C66 Subqueries complete before they are used; nothing is left behind** (proved) — A query is a tree of tasks, each an arbitrary program over the memory database (free monad: reads, writes, deletes, failure at any point); events are logged. Ordering and failure by induction on the tree; store, bookkeeping and log related by an invariant; the compiler's naming is modelled and proved well scoped for every query shape.
* **C67 Set operations combine SELECTs as SQL does** (proved) — Trees of set operations; the flattening of compile_union as a recursive function; composition with C47.
* **C68 Constants have the value that is written** (proved) — Literals as character lists; Python's unicode_escape decoder as a function; decoding inverts escaping by induction; the constants case by case.
* **C69 INSERT VALUES stores the rows that are written** (proved) — The row loop with the column types as state; an invariant on the types a column can get; the records compared position by position.
* **C70 Table names lead to the tables they name** (partial) — os.path functions and parse_table on character lists, the databases of a query as state; an invariant (every database is the one a source wants, names distinct) by induction on the tables.
* **C71 Correlated subqueries are evaluated for each outer row** (partial) — The split of the WHERE (keys, interceptors, rest), the batch load with IN and the matching by key, on rows as functions from column references; the split characterised conjunct by conjunct, equality with SQL's filter for each outer row.
* **C72 Regular-expression functions find the right occurrence** (partial) — The matching engine is a parameter; the loop over shortened texts; an inductive specification of the list of occurrences, with existence and uniqueness; the loop proved to return the n-th element by induction on the occurrence; re.sub by induction on the list.
* **C73 GREATEST and LEAST pick an extreme argument** (proved) — Python's max/min fold over values with a partial comparison; invariant: the kept item is an extreme of the items seen, by induction, with transitivity of the order of numbers and of texts.
* **C74 Encodings are undone by their inverses** (proved) — base64 and hexadecimal on lists of bytes, digits in a base; round trips by induction over groups of bytes; Lean's own UTF-8 functions and their round trip theorem.
* **C75 Bit operators** (proved) — Python's unbounded integers; bit by bit with testBit for naturals, shifts as multiplication and floored division.
* **C76 WITH and WITH RECURSIVE** (partial) — Named queries as lists of SELECTs, the one-row-at-a-time loop as an inductive relation (it need not end); equivalence with the rounds of the recursion by strong induction on the result, then induction over the list of named queries.
* **C77 Expressions around aggregates** (partial) — The final expression over the reduced row, on top of C31: exact value for every select list, then congruence on the columns that occur.
* **C78 Columns of a SELECT** (partial) — The select list as a fold over an ordered dictionary of columns; invariant: with different names the dictionary is the list of SQL's columns so far, by induction on the list.
* **C79 History of the prompt** (proved) — The file as a list of characters, the reader as a fold over its lines; refinement of a list of texts by induction over the operations; crash points as prefixes of what is written.
* **C80 DATE_FORMAT** (proved) — strftime directive by directive, MySQL's table as a separate inductive relation on formats; induction on the format, digits against Nat.repr by induction on their number.
* **C81 Dates, times and instants** (proved) — Dates, times and moments as a sum type; instants as wall clock and offset; arithmetic on seconds on top of the calendar of C40.
* **C82 SET addresses what it names** (proved) — the text of SET cut at `=`, its target, the effect on the heap of variables and the sessions' settings; blanks and names general, by list lemmas.
* **C83 EXECUTE runs a file in place, in a session of its own** (proved) — statements and jobs as (nested) inductive types, start with a recursion depth, run by nested recursion; a frame lemma says which sessions a statement can touch, a log lemma that the queue runs in order.
* **C84 EXPLAIN does not execute** (partial) — the same model; EXPLAIN of a query is equal to the query.
* **C85 USE and SHOW** (proved) — the same model; splitting at ` as ` and at dots by the lemmas of the string functions.
* **C86 The rest of a failed script is dropped** (partial) — the model of C11; the clauses of that subject which the code does not keep, each refuted by a theorem (for all inputs where possible), with what holds instead as `_partial`.
* **C87 Aggregates of NULLs only** (partial) — the model of C17; the clauses of that subject which the code does not keep, each refuted by a theorem (for all inputs where possible), with what holds instead as `_partial`.
* **C88 NTILE puts the larger buckets first** (partial) — the model of C24; the clauses of that subject which the code does not keep, each refuted by a theorem (for all inputs where possible), with what holds instead as `_partial`.
* **C89 A number and a numeric text compare the same in either order** (partial) — the model of C28; the clauses of that subject which the code does not keep, each refuted by a theorem (for all inputs where possible), with what holds instead as `_partial`.
* **C90 MOD has the sign of the dividend** (partial) — the model of C30; the clauses of that subject which the code does not keep, each refuted by a theorem (for all inputs where possible), with what holds instead as `_partial`.
* **C91 ELT is inverse to FIELD; FIND_IN_SET of anything** (partial) — the model of C33; the clauses of that subject which the code does not keep, each refuted by a theorem (for all inputs where possible), with what holds instead as `_partial`.
* **C92 SET of quoted texts and negative decimals** (partial) — the model of C48; the clauses of that subject which the code does not keep, each refuted by a theorem (for all inputs where possible), with what holds instead as `_partial`.
* **C93 ROUND(x) is the nearest integer** (partial) — the model of C51; the clauses of that subject which the code does not keep, each refuted by a theorem (for all inputs where possible), with what holds instead as `_partial`.
* **C94 DAYOFWEEK, WEEK(x,1), YEARWEEK, MONTHNAME, DAYNAME** (partial) — the model of C52; the clauses of that subject which the code does not keep, each refuted by a theorem (for all inputs where possible), with what holds instead as `_partial`.
* **C95 Text piped in without an argument** (partial) — the model of C61; the clauses of that subject which the code does not keep, each refuted by a theorem (for all inputs where possible), with what holds instead as `_partial`.
* **C96 A crash while the history is trimmed** (partial) — the model of C79; the clauses of that subject which the code does not keep, each refuted by a theorem (for all inputs where possible), with what holds instead as `_partial`.
* **C97 UNIX_TIMESTAMP undoes FROM_UNIXTIME** (partial) — the model of C81; the clauses of that subject which the code does not keep, each refuted by a theorem (for all inputs where possible), with what holds instead as `_partial`.
* **C98 EXECUTE refuses what is no SQL or JSON file** (partial) — the model of C83; the clauses of that subject which the code does not keep, each refuted by a theorem (for all inputs where possible), with what holds instead as `_partial`.
* **C99 Intermediate reductions release what they read** (partial) — the model of C22; the clauses of that subject which the code does not keep, each refuted by a theorem (for all inputs where possible), with what holds instead as `_partial`.
* **C100 Contexts, terminal() and failing init files** (partial) — the model of C56; the clauses of that subject which the code does not keep, each refuted by a theorem (for all inputs where possible), with what holds instead as `_partial`.
* **C101 JSON containment of parts, length of scalars, null members** (partial) — the model of C39; the clauses of that subject which the code does not keep, each refuted by a theorem (for all inputs where possible), with what holds instead as `_partial`.
* **C102 DATEDIFF, months, long times** (partial) — the model of C41; the clauses of that subject which the code does not keep, each refuted by a theorem (for all inputs where possible), with what holds instead as `_partial`.
* **C103 USE of a path; AS** (partial) — the model of C85; the clauses of that subject which the code does not keep, each refuted by a theorem (for all inputs where possible), with what holds instead as `_partial`.
* **C104 Zero, negative and NULL counts** (partial) — the model of C32; the clauses of that subject which the code does not keep, each refuted by a theorem (for all inputs where possible), with what holds instead as `_partial`.
* **C105 CONCAT_WS with NULL, INSERT outside the text, REPLACE of the empty text** (partial) — the model of C35; the clauses of that subject which the code does not keep, each refuted by a theorem (for all inputs where possible), with what holds instead as `_partial`.
* **C106 SUBSTRING_INDEX from the right** (partial) — the model of C34; the clauses of that subject which the code does not keep, each refuted by a theorem (for all inputs where possible), with what holds instead as `_partial`.
* **C107 Bit operators on 64 bits** (partial) — the model of C75; the clauses of that subject which the code does not keep, each refuted by a theorem (for all inputs where possible), with what holds instead as `_partial`.
* **C108 NULLs in JSON aggregates** (partial) — the model of C64; the clauses of that subject which the code does not keep, each refuted by a theorem (for all inputs where possible), with what holds instead as `_partial`.
* **C109 UNION, EXCEPT, INTERSECT and parentheses** (partial) — the model of C67; the clauses of that subject which the code does not keep, each refuted by a theorem (for all inputs where possible), with what holds instead as `_partial`.
* **C110 Accented letters, signs and bit strings** (partial) — the model of C68; the clauses of that subject which the code does not keep, each refuted by a theorem (for all inputs where possible), with what holds instead as `_partial`.
* **C111 DATE_ADD of months and years** (partial) — the model of C40; the clauses of that subject which the code does not keep, each refuted by a theorem (for all inputs where possible), with what holds instead as `_partial`.
* **C112 AVG and JSON_OBJECTAGG in parts** (partial) — the model of C20; the clauses of that subject which the code does not keep, each refuted by a theorem (for all inputs where possible), with what holds instead as `_partial`.
* **C113 Aggregates over mixed values and row order** (partial) — the model of C19; the clauses of that subject which the code does not keep, each refuted by a theorem (for all inputs where possible), with what holds instead as `_partial`.
* **C114 LIMIT 0; LIMIT with DISTINCT or GROUP BY** (partial) — the model of C46; the clauses of that subject which the code does not keep, each refuted by a theorem (for all inputs where possible), with what holds instead as `_partial`.
* **C115 WITH leaves nothing behind** (partial) — the model of C66; the clauses of that subject which the code does not keep, each refuted by a theorem (for all inputs where possible), with what holds instead as `_partial`.
* **C116 Encodings of numbers, empty and longer texts, addresses** (partial) — the model of C74; the clauses of that subject which the code does not keep, each refuted by a theorem (for all inputs where possible), with what holds instead as `_partial`.
* **C117 Settings of the parent reach its sessions** (partial) — the model of C14; the clauses of that subject which the code does not keep, each refuted by a theorem (for all inputs where possible), with what holds instead as `_partial`.
* **C118 Configuration reads see the writes of other sessions** (partial) — the model of C16; the clauses of that subject which the code does not keep, each refuted by a theorem (for all inputs where possible), with what holds instead as `_partial`.
* **C119 The other specifiers of DATE_FORMAT** (partial) — the model of C80; the clauses of that subject which the code does not keep, each refuted by a theorem (for all inputs where possible), with what holds instead as `_partial`.
* **C120 SET GLOBAL of settings, SET of expressions, special names** (partial) — the model of C82; the clauses of that subject which the code does not keep, each refuted by a theorem (for all inputs where possible), with what holds instead as `_partial`.
* **C121 INSERT VALUES of mixed columns, expressions, without columns** (partial) — the model of C69; the clauses of that subject which the code does not keep, each refuted by a theorem (for all inputs where possible), with what holds instead as `_partial`.
* **C122 Columns over joined tables** (partial) — the model of C44; the clauses of that subject which the code does not keep, each refuted by a theorem (for all inputs where possible), with what holds instead as `_partial`.
* **C123 A configuration file overrides what it extends** (proved) — Model/Load: load_config with the stack depth as fuel and the file system as a parameter; an inductive relation for the files read; induction on the fuel and, for circles, on the number of files read.
* **C124 The current directory's configuration has precedence over the home directory's** (partial) — the order of the set of file names is a parameter; a theorem for each outcome and one that both occur.
* **C125 Every setting is decided by the nearest place that makes it** (proved) — the merge lemmas of C15 applied along the list of files read.
* **C126 The databases after loading** (proved) — databases as association lists; the completion proved to keep and add what is said, by induction on the lists.
* **C127 A file database's own encoding and formats have precedence over the global ones** (partial) — the same model; negation for every global format and file database.
* **C128 Initialisation scripts** (proved) — executes as the concatenation along the list of files read; mapM over the lookup.
* **C129 An initialisation script runs once** (partial) — counting the occurrences of a file in the list of files read.
* **C130 Parameters of virtual views** (proved) — Model/View: the regular expression's matches by structural search, replacement of all occurrences; views as sequences of characters and parameters; induction on the sequence.
* **C131 Positional parameters stay aligned** (partial) — the same model; negation for every well-formed view with a %s before it, and a witness for defaults.
* **C132 SELECT with LEFT JOINs as a whole** (partial) — Model/JoinSelect: compile_select over columns compiled by compile_join_column (Join.C), run from the row of the primary table; proved by simulation: the plan computes, column by column, what the plan of Select computes on the row of the joins (C122_value), and running commutes with the map from primary rows to joined rows; then C57.
* **C133 Grouped SELECT with LEFT JOINs as a whole** (partial) — the same simulation through the batched fold of groups (homomorphism of folds), then C58.
* **C134 SELECT with INNER JOINs as a whole** (partial) — Model/JoinInner: the rewriting of the query (LEFT JOIN, IS NOT NULL added to WHERE with parentheses around OR); WHERE of the rewritten query selects from the left joined rows exactly the inner joined rows that satisfy the original WHERE (C45), then C132.
* **C135 Grouped SELECT with INNER JOINs as a whole** (partial) — the same, then C133.
* **C136 SELECT DISTINCT with joins as a whole** (partial) — run_eq of C132 (the query on the rows of the joins), then C59; INNER JOIN by the rewriting as in C134.
* **C137 Type annotations of columns** (partial) — Model/Column: parse_column and compile_column on the characters of the name; annotations written by a separate function of the specification; for the refutation: for every evaluator of the compiled column, two annotations that compile to the same column but must differ.
* **C138 Casts, and typed columns in WHERE** (partial) — the same model; conditions are judged by the key they are pushed under, for every data source.
* **C139 Names in WHERE are columns of the table** (partial) — Model/WhereAlias: compile_select with the look-up of a bare column in the result columns; equal to Select's compile_select when no bare column has the name of a result column (induction over the split of WHERE); a witness otherwise.
* **C140 Calls of SQL functions** (partial) — Model/Call: Python functions as records (parameters, defaults, *args, local variables, partial body), Python's call and the calls of MysqlCalculater; by cases on the two ways.
* **C141 Registered functions** (partial) — the table of functions as an association list; look-up after registration.
* **C142 Mathematical functions** (partial) — functions of math as arbitrary partial functions of numbers; C140 for the calls.
* **C143 ROW_INDEX and ROW_LAST** (proved) — Model/RowCalc: state machines, one for each use; induction over the rows.
* **C144 SELECTs within SELECTs, UNION ALL and WITH, to any depth** (partial) — Model/Nest: statements as trees over Model/Select, run bottom-up with a store; Spec/Nest: SQL's meaning as a relation; induction over the statement with C57, C58, C59 at each SELECT and C47 at each UNION.
* **C145 INSERT INTO ... SELECT stores the rows of the SELECT** (partial) — Model/Insert over Model/Nest; C144 plus the names of the result rows.
* **C146 INSERT INTO ... SELECT writes to the table and in the way that is asked for** (partial) — Model/Insert: the output text with Python's split; first and last pieces of split texts.
* **C147 SELECT from several tables (FROM a, b, ...) as a whole** (partial) — Model/FromList: the conjuncts of WHERE as written, their way into the ON of LEFT JOINs; by C132/C133 and the equality of filtered joins and filtered products (C54).
* **C148 Variables in a select list take effect row by row, left to right** (partial) — Model/UserVar: expressions with variables compiled to getters and setters over the chain of dictionaries; simulation with a store, by induction over expressions, columns and rows.
* **C149 Variables in WHERE have the values of the time the query runs** (partial) — Model/UserVar: the same, with the environment of compilation and that of the run kept apart.
* **C150 Raw SQL blocks define their views and nothing else of the statement changes** (proved) — Model/RawSql: the regular expression as a matcher over characters, findall, the replacement loop and the SET text; Spec/RawSql: statements as plain characters and blocks; induction over the statement.
* **C151 Global variables: command line, then the program's own names, then the environment** (partial) — Model/Globals: build_global over environ and argv; Spec/Globals: what an argument says and names; induction over the arguments and the environment; values with = refuted.
* **C152 A statement's options are what the user set, else the defaults** (partial) — Model/Globals: the arguments of Executor.compile over the chain of environments; Spec/Globals; the fallback to the environment refutes the full statement.
* **C153 Interactive session: each statement acts alone and in order** (proved) — Model/Prompt: the loop as a relation over events on top of the queue machine; Spec/Prompt: a session without queue; equivalence by induction over the session, the ghost log being irrelevant.
* **C154 exit leaves the prompt at once** (partial) — Model/Prompt and Model/Parser (check_complete); characterisation from C49; capitals refuted.
* **C155 A statement of any shape means what its parts mean** (partial) — Model/Tree (trees of Select, JoinSelect, WinSelect) against Spec/Tree by mutual induction on the tree; each level by C57-C59, C132-C136, C147, C65.
* **C156 The columns of a select list do not disturb each other** (partial) — Model/JsonHeap: lists and dictionaries as cells of a heap, JSON_SET and JSON_REMOVE change cells. Ownership (Spec/JsonHeap Own: a document by cells none of which is used twice) as invariant over the select list; the two violations for every dictionary.
* **C157 Queries that are as they should be are accepted** (proved) — Spec/Accepted (forms of HAVING, ORDER BY, GROUP BY; parts of expressions) against Model/Select and Model/JoinSelect: each stage of the compiler returns something; the chain of tables by C44 with the position of the join as rank; the residual WHERE has only parts of WHERE.
* **C158 A query in the supported form is compiled and returns SQL's result** (partial) — Spec/Total (conditions on the query); Props/Total combines C157 (and the acceptance of INNER JOINs and windows, proved there) with C57-C59, C65, C132-C136; the conditions on plans (LIMIT) are derived from the query.
* **C159 The ways to write LIMIT and OFFSET** (proved) — Model/LimitParse: _parse_limit and _parse_offset over token lists, the library's versions as parameters; composed with C46.
* **C160 COUNT in all its forms** (partial) — Model/AggCall: the value of a call (scalar or list) and the sets of COUNT(DISTINCT); Spec/AggCall: different combinations; the state of the fold lists each class once. NULLs refute the full statement.
* **C161 Calls of aggregates** (partial) — Model/AggCall: compile of calls (kinds, names, second spellings, DISTINCT); case analysis; the further arguments refute the full statement.
* **C162 Tables named by variables** (partial) — Model/TableVar on the executor machine: names bound when a statement is started, marks renamed when it runs; simulation of the two phases against statement-by-statement execution, by induction over the script.
* **C163 Correlated subqueries with DISTINCT, GROUP BY, HAVING and ORDER BY** (partial) — Model/CorrSub on Model/Correlated: grouping by the key columns first; the groups of an outer row are SQL's groups (filter commutes with grouping, stable sort and DISTINCT).
* **C164 Scripts on tables** (partial) — Model/Session: statements over Model/Tree, Literal, Where on the queue machine of Model/Executor (compile all, then run all). Spec/Session: a step relation. Induction over the script with the agreement of tables outside the names of WITH as invariant.
* **C165 Statements and scripts in the supported form are accepted** (partial) — Acceptance of trees by structural recursion from C157/C158 per level; plan-free level conditions imply those of C155; scripts by induction from C164.
* **C166 The key of written rows** (partial) — Model/Keys: fold over the select list (marks, first candidate), reading of name[types]<pk>. Invariant of the fold: the key is the marked columns so far, or the first candidate so far; the text is read back from how columns are written.
* **C167 Subqueries as operands of WHERE** (partial) — Model/SubOperand on top of Model/Where: conditions with subquery operands, pushed or residual. Invariant of the split as in C42 (what was pushed plus what is left means the clause), three-valued meaning below NOT.
* **C168 Statements with subqueries in WHERE at any depth** (partial) — Model/Tree: a SELECT of the tree may have a WHERE clause with subqueries, which are further sources beside those of the joins; C155/C164/C165 by induction on the tree as before, the filled-in clause compiles to what Model/SubOperand compiles (Proofs/TreeSub).
* **C169 HAVING with LIKE and with subqueries** (partial) — Model/HavingSub: what compile_having_condition makes of LIKE (the pattern rewriting and a prefix matcher for the regular expressions that arise) and of subqueries; induction on the condition, the pattern part by reduction to the matcher of C36.
* **C170 What a column of the select list is, and which statements are grouped** (partial) — Model/ItemKind: the tests is_column, is_const, is_calculate, is_aggregate and the walks parse_aggregate/parse_window_aggregate over trees of sqlglot classes; mutual induction on trees against the list of sub-expressions.
* **C171 Functions of a whole table** (partial) — Model/Whole: compile_pipleline_select and the column search of parse_calculate over the trees of C170; induction on trees.
* **C172 GET_VALUE** (partial) — Model/GetValue: the path texts written by compile_calculate for GET_VALUE and a reader for them; the texts are parsed back (induction on steps, integer texts of C50).
* **C173 The clock** (partial) — Model/Clock: instants, zones as functions of the instant; linear integer arithmetic.
* **C174 Those who read the result of a query find it** (partial) — Model/SecondPass: the decision for a second pass (query.py start), where its passes write, and the two readers (IntoTasker, ExecuteQueryTaskerCalculater); the decision characterised, both readers proved for one pass and refuted for two, for all results.
* **C175 Scripts with variables** (partial) — Model/VarScript: Model/Session with variables (a call of the getter in an expression) and SELECT … INTO on the queue machine; sequences of scripts. Spec/VarScript: a step relation in which variables are read from the state. First: compiling a query does not depend on what functions compute (naturality of the compilation in its columns); then induction over the script in two phases (SET/VALUES, then the rest) with equality of what variables hold, NULL for undefined, as invariant.
* **C176 Streaming changes no result** (partial) — Model/Streaming: generators of tasks with what is left of their programs (Model/Tasks), one `send` = one round of run_yield, a relation Drives for the statement going back to the queue with the deletion of temporary collections in between; the column of an aggregate with and without the second pass. Existence and uniqueness of the end by induction on the program; a dependency that does not yield ends in its first round (mutual induction), then simulation up to temporary collections.
* **C177 A signal stops the script** (partial) — Model/Stop: statements as lists of actions of subqueries, first and second pass, files as nested scripts; a signal after n actions. Induction over scripts (mutual with files).
* **C178 JSON texts are the documents they write** (partial) — Model/JsonText: json.dumps and json.loads written out (escapes, \u, surrogate pairs, numbers, blanks, duplicate members). Round trip by mutual induction over documents with what follows the value as a parameter. Grammar (Spec/JsonText): soundness of the reader by induction over the depth bound, completeness by mutual induction over derivations with what follows as a parameter.
* **C179 Tables that are not in the query are refused** (partial) — Model/JoinSelect: the checks of parse_joins, compile_select_column and the WHERE compilation; what each conjunct records is kept by the later ones (induction over ON), every expression of a compiled plan was compiled (induction over the select list).
* **C180 Tables in HAVING** (partial) — Model/HavingTable: compile_having_condition before the rest of Model/JoinSelect; the condition without tables has the value of the condition with them where the result column is the table's (induction on HAVING), then C132.
* **C181 Quoted names and wildcards in JSON paths** (partial) — Model/Json (parse_json_path, get_json_path_value). Texts of paths are generalized to steps between brackets (any text without ]); reading by induction over the path; Collect (Spec/JsonWild) describes the values behind [*].
* **C182 SET @use_output_type** (proved) — Model/Hint on top of Model/Table and Model/Insert: the option appended to the table's own; Spec/Hint (Way) says which way is asked for. Case analysis on the five names; find? over an append; composition with C146.
* **C183 The settings a query works with** (partial) — Model/QueryConfig on top of Model/Config: the second cache (sections passed to queries), the context reader. Invariant for every history: what was passed last is the restriction of the cached merged configuration. For a script of one session: induction with the caches of the session and its parents equal to what their settings say.
* **C184 Options reach subqueries** (proved) — Model/SubArgs: compile_with/compile_subquery/compile_union and QueryTasker.start as far as the options are concerned; options are functions from names. Invariant: what is under the name of a subquery is what it was compiled with, whatever its siblings did (names that no other begins); induction over the tree of subqueries.
* **C185 SQL functions and comparisons inside statements** (partial) — Model/Functions: the table of functions by name (mysql_funcs) as calls of Model/Call, with the functions of Model/Scalar and Model/Str. Spec/Functions.Std says what SQL's functions are, as a relation; first every fact of it is shown of the table (C27, C30, C32, C33, C35, C36, C51), then expressions by mutual structural induction, then the results of SELECTs and, with C144, statements: any `sql` and `cmp` that agree with Std and StdCmp (comparisons of numbers, texts and NULL) give the same result. C185_tree_partial: the same with C155 for joins, window functions and subqueries in WHERE and HAVING (Spec/TreeFunctions says where the functions are called).
* **C186 SQL aggregates inside statements** (partial) — Model/Aggregates: the calculaters of Model/Aggregate by the name of the aggregate, with one type of state, and statements whose aggregates are written by name (mapRel puts something in their place). Spec/Aggregates.StdAgg: what they are. C186_aggregate from C17 and C18; C186_combine from C20 and C112; then the results of SELECTs, windows (on the frames of SQL) and statements, by structural induction: the meaning with the calculaters is the one with any `agg` that agrees with StdAgg (C186_meaning); with C185 and C155 that is what the program returns (C186_tree_partial).
* **C187 Calls reach the functions of the source files** (partial) — Model/FuncTable: the tables made of the files (dict comprehension over names with the prefix, dict.update) and calls of functions the parser knows (arguments by name, then in the order of arg_types). Spec/FuncTable: the last def in the last file (Provides), or none (Missing), as decompositions of the lists. Proof: find after register (C141), by induction on definitions and files; the round trip of arguments by induction on arg_types.

## Disagreements found

Where the code does not do what the property says, the negation is proved with a concrete query, value or history (theorems
`…_violated`, `…_refused` and the like), and the `_partial` theorem states exactly the part that holds. From the theorems' own comments:

* `C03_line_comment_quote_violation`: **C03 is violated**: a script consisting of a line comment and one statement; with one content of the comment the statement is found, with another (`it's`) it is silently swallowed.
* `C03_block_comment_quote_violation`: **C03 is violated**: an apostrophe in a block comment makes the whole script fail.
* `C12_violated`: **C12 is violated**: `SELECT 1 INTO @a; SET @a = 2; SELECT @a` prints 1, in-order execution prints 2.
* `C12_violated_early`: **C12 is violated** the other way too: `SELECT @a; SET @a = 2` prints 2, not NULL.
* `C18_avg_violated`: **C18 is violated**: a NULL after the first number counts in the divisor; AVG of (1, NULL) is 1/2.
* `C18_avg_all_null_violated`: AVG of a group with only NULLs is 0 (SQL: NULL).
* `C25_violated`: **C25 is violated**: keys 1, 1, 2 get ranks 1, 1, 2 (SQL: 1, 1, 3) and keys 1, 2, 2 get dense ranks 1, 2, 3 (SQL: 1, 2, 2).
* `C26_cume_dist_always_wrong`: **C26, CUME_DIST is wrong in every row** of every non-empty partition: the result is above 1.
* `C26_percent_rank_last_row_wrong`: **C26, PERCENT_RANK of the last row is wrong** in every partition of at least two rows.
* `C31_having_between_violated`: A HAVING clause with BETWEEN ignores both bounds: the compiled form only mentions the left operand.
* `C31_not_and_violated`: **C31 is violated by NOT over AND**: `NOT (a = 1 AND b = 1)` on a row with `a` NULL and `b` 1 is NULL in SQL (the row is filtered out) but 1 in the code (the row is kept).
* `C31_not_between_violated`: Likewise `a NOT BETWEEN 1 AND 2` with `a` NULL.
* `C31_case_without_else_violated`: `CASE WHEN a = 1 THEN 5 END` is 0 instead of NULL when nothing matches.
* `C31_case_constants_violated`: `CASE a WHEN 1 THEN 5 WHEN 1 THEN 6 END` takes the last instead of the first alternative, and `CASE NULL WHEN NULL` matches.
* `C31_is_true_violated`: `2 IS TRUE` is 0 instead of 1.
* `C36_like_violated`: **C36 is violated**: 'abcdef' LIKE 'abc' holds, 'abc' LIKE 'a_c' and 'axb' LIKE 'a%%b' do not, and neither does a text with a newline like '%b'.
* `C36_like_number_violated`: **C36 is violated** by numbers: `123 LIKE '1%'` is 0 (SQL: 1), whatever the number and the pattern.
* `C37_text_index_violated`: **C37 is violated by indexes into texts**: JSON_EXTRACT('{"a": "xy"}', '$.a[0]') is 'x' instead of NULL.
* `C37_wildcard_violated`: **C37 is violated** by the path `$.*`: it is the document itself instead of the values of its members.
* `C38_index_leg_violated`: **C38 is violated when a leg before the last is an index**: JSON_REMOVE('{"a": [{"b": 1, "c": 2}, 3]}', '$.a[0].b') deletes the whole element 0.
* `C42_constant_left_violated`: **C42 is violated by `5 < a`**: it is pushed as `a < 5`; a row with `a = 3` is selected, one with `a = 7` is not.
* `C42_in_column_violated`: **C42 is violated by `a IN (1, b)`**: the list is evaluated before there is a row; a row with `a = b = 2` is lost.
* `C42_typed_column_violated`: **C42 is violated when a column is used with and without its type**: `` `a|int` > 5 AND a > 1 `` loses its first condition; a row with `a = 3` is selected.
* `C43_constant_left_violated`: **C43 is violated by `DELETE … WHERE 5 < a`**: it is accepted and deletes the rows with `a < 5`, keeping the others.
* `C45_left_join_violated`: **C45 is violated by LEFT JOIN beside INNER JOIN**: `a INNER JOIN b ON b.id = a.id LEFT JOIN c ON c.id = a.id` loses the row of `a` and `b` when `c` has no match.
* `C45_indirect_violated`: **C45 is violated by an INNER JOIN that is tied to another joined table only**: `a INNER JOIN b ON b.id = a.id INNER JOIN c ON c.id = b.x` keeps the row of `a` and `b` when `c` has no match.
* `C45_plain_join_violated`: **C45 is violated by JOIN without INNER**, which keeps unmatched rows.
* `C45_ifnull_violated`: **C45 is violated by comparisons that are not strict**: `a INNER JOIN b ON b.id = IFNULL(b.x, a.id)` loses the matches in which `b.x` is NULL.
* `C47_extra_columns_violated`: **C47 is violated by branches with other names**: every column name of every branch is a column of the result.
* `C47_position_violated`: **C47 is violated by position**: SELECT 1 AS a, 2 AS b UNION SELECT 3 AS b, 4 AS a puts 4 under `a`.
* `C47_overwritten_violated`: … and it can lose a column: SELECT 1 AS b, 2 AS x UNION SELECT 3 AS a, 4 AS b gives the second row 3 under all of `b`, `x` and `a`; the 4 is gone.
* `C47_duplicates_violated`: UNION does not remove duplicates: SELECT 1 AS a UNION SELECT 1 AS a has two rows.
* `C53_other_table_violated`: **C53 is violated by a condition on another table**: in `a LEFT JOIN b ON b.id = a.id AND a.kind = 1` the condition `a.kind = 1` is applied to the column `kind` of `b`.
* `C53_right_side_violated`: **C53 is violated by a column on the right** of something that is not a column: `b JOIN … ON b.id = a.id AND b.x + 1 > c.y` does not record that it needs `c`, and a column of `b` does not compile.
* `C53_two_equations_refused`: **C53 is violated by two equations of one column**: `ON b.id = a.x AND b.id = a.y` is refused.
* `C54_empty_violated`: **C54 is violated by a table without comparison**: `FROM a, b` has a row when `b` is empty.
* `C54_lookahead_violated`: A comparison that looks ahead goes to the ON of the earlier table: `FROM a, b, c WHERE b.x = c.y + 1 AND c.id = b.id` has two ON that refer to each other, and the chain of tables does not end (`C122_cycle_violated`).
* `C55_alias_violated`: **C55 is violated by an alias that hides a column**: `SELECT -a AS a FROM t ORDER BY a` sorts by the column, so that the result descends.
* `C55_qualified_violated`: **C55 is violated by a qualified column** beside an alias of its name: `SELECT -x.b AS b, x.a AS y FROM t AS x ORDER BY x.b, y` sorts by the result column `b`.
* `C58_alias_violated`: **C58 is violated by an alias in GROUP BY that stands after an aggregate**: in `qAlias` it is taken for a column of the table; there is one group, though `b` is 1 and 2.
* `C58_no_rows_violated`: **C58 is violated by aggregates without GROUP BY over no rows**: there is no row in the result.
* `C58_limit_violated`: **C58 is violated by LIMIT on GROUP BY without aggregates**: the rows that are read are limited; of the groups 1 and 2 only the first is in the result.
* `C59_limit_violated`: **C59 is violated by LIMIT**, in the same way.
* `C59_aggregate_violated`: **C59 is violated by DISTINCT with GROUP BY or aggregates**: it is ignored; the result has the same row twice.
* `C63_hangs_violated`: **C63**: the compiler does not come to an end when the ON of a RIGHT JOIN of `b` (tied to the table after FROM) compares a column of `b` with an expression that has a column of `b` beside one of the other table, as in `a RIGHT JOIN b ON b.id = a.id + b.x`.
* `C63_where_right_table_violated`: **C63 is violated by a condition on the right table**: with `WHERE b.x = 5` the columns of `a` are all NULL, because `b.x = 5` is put into the ON of `a`, where it is applied to the column `x` of `a`.
* `C63_where_is_null_violated`: **C63 is violated by a search for rows without partner**: `a RIGHT JOIN b ON b.id = a.id WHERE a.id IS NULL` returns every row of `b`.
* `C63_on_constant_violated`: **C63 is violated by constants in ON**: `ON b.id = a.id AND b.id = 1` loses the rows of `b` that do not satisfy it.
* `C63_on_left_table_violated`: … likewise `ON b.id = a.id AND a.x = 2`, a condition on the left table.
* `C63_inner_violated`: **C63 is violated by INNER JOIN beside RIGHT JOIN**, which becomes a LEFT JOIN: `a INNER JOIN c ON c.x = a.x RIGHT JOIN b ON b.id = a.id` keeps rows of `a` that have no partner in `c`.
* `C63_or_violated`: **C63 is violated by a WHERE that is an OR**: in the ON of `a` it is not put in parentheses, so that the ON is `(b.id = a.id AND a.x = 2) OR a.x = 7`, and rows of `a` appear beside rows of `b` they do not match.
* `C63_two_right_refused`: Two RIGHT JOINs tied to the first table are refused.
* `C65_peers_violated`: **C65 is violated by peers**: in `qPeers` the rows are counted one by one; of two rows with the same `a` the first counts 1, though SQL's frame goes up to the last peer.
* `C65_alias_violated`: **C65 is violated by an alias that hides a column in PARTITION BY**: `qHidden` is divided by `b`.
* `C65_expr_column_violated`: **C65 is violated by a column of the table in an expression of window functions**: unless it is in the select list under its own name it is NULL there; `qMixed` gives the row's number though `a` is 7.
* `C65_column_order_violated`: **C65 is violated in the order of the columns by expressions of window functions**, which come last.
* `C65_order_by_expr_refused`: **C65 is violated by ORDER BY the alias of an expression of window functions**: such a query is refused, whatever the rest of it.
* `C65_having_expr_refused`: **C65 is violated by HAVING on the alias of an expression of window functions**: such a query is refused. (`havingCols`: not in the list of an IN or the bounds of a BETWEEN, which are not looked at.)
* `C69_too_many_refused`: **C69** A row with more values than columns makes the statement fail, wherever it is: nothing is stored.
* `C70_mixed_formats_violated`: **C70 is violated** by files of one directory that are read in different ways: after the second file has been looked up the first one is read as the second (or the other way round: there is one database for the directory).
* `C70_csv_and_json_violated`: `SELECT … FROM 'data/a.csv' a JOIN 'data/b.json' b …`: the CSV file is read as JSON.
* `C70_similar_directories_violated`: **C70 is violated** by directories whose paths differ in punctuation only: `'a-b/x.csv'` and `'a_b/y.csv'` are both looked for in `a_b`.
* `C70_format_violated`: **C70 is violated** by text files with and without a format in one directory: the format of one is given to the other.
* `C70_stdio_violated`: **C70 is violated** by the table `.csv` (standard input or output) after a text file with format CSV: it is looked for in the directory of that file.
* `C70_capital_extension_violated`: **C70 is violated** by extensions in capital letters: `'A.CSV'` is a table in memory.
* `C71_repeated_equality_refused`: **C71**: the subquery is refused exactly when an equality between the two queries is written twice.
* `C71_count_violated`: C71 fails for COUNT: an outer row without matching rows gets NULL, SQL counts 0 (whatever the table and the outer row).
* `C71_exists_aggregate_violated`: C71 fails for EXISTS of an aggregate, which is always true in SQL (an aggregate without GROUP BY returns a row): here an outer row without matching rows gets false.
* `C71_inequality_aggregate_violated`: C71 fails for an aggregate tied to the outer query by anything but equalities of columns: the columns the condition needs are grouped by, so there is a value for every one of their values instead of one. `SUM(t.d)` of the rows with `t.d < 8`: SQL 12.
* `C71_limit_violated`: C71 fails for LIMIT, which cuts the rows of all outer rows of a batch together: `SELECT t.d FROM t WHERE t.k = o.k LIMIT 1` gives the outer row 2 no value when it is evaluated with the outer row 1, and 9 on its own.
* `C71_shadowed_table_violated`: C71 fails when the subquery reads the table of the outer query under the same name: `t.k = t.d` compares two columns of the subquery's own row in SQL; here the second one is taken from the outer row.
* `C71_joined_violated`: C71 is violated by a condition (other than an equality of columns) that mentions a joined table of the outer query: whatever the tables hold, no row is found, if the condition is not true of NULLs.
* `C71_column_violated`: C71 is violated by a condition that is just a column of the outer query, `WHERE o.flag`: no row is found, whatever the column holds.
* `C71_between_violated`: C71 is violated by BETWEEN with bounds of the outer query, `t.d BETWEEN o.k AND o.d`: no row is found, whatever the tables hold.
* `C72_contains_violated`: Violation: SQL's `REGEXP` is true when the text *contains* a match; here the answer is wrong for exactly the texts that contain one but do not begin with one.
* `C72_prefix_dropped_violated`: Violation: `REGEXP_REPLACE` of all occurrences from a position on loses the text before that position: what it gives is what it gives for the rest of the text alone.
* `C72_replace_from_violated`: Violation: so for every position inside the text the answer is never what SQL says, the text up to the position followed by the rest with its occurrences replaced.
* `C72_anchor_violated`: Violation: `^` matches again at every place where the search goes on, so a second occurrence is found where SQL has none, and a search from a position on finds one there.
* `C72_empty_match_violated`: Violation: an empty match is found again and again at the same place: every occurrence is the first one.
* `C76_run_again_violated`: **C76 is false when the statement is run again**, for every statement with one named query that does not depend on tables of the memory database: the rows of the first run are still there, and the second run sees every row twice.
* `C76_existing_table_violated`: **C76 is false when a table of that name exists**: it is not hidden; its rows come before those of the named query.
* `C76_prefix_violated`: **C76 is false for a query that reads a table whose name begins like its own**: in `WITH t AS (SELECT 1 AS n UNION ALL SELECT n + 1 AS n FROM t2 WHERE n < 3)`, with one row 0 in `t2`, the second SELECT is taken for a recursion: 1, 2, 3 instead of 1, 1.
* `C76_two_recursions_violated`: **C76 is false for two recursive SELECTs**: each is run to its end on its own, so rows of the second never reach the first. `WITH RECURSIVE t AS (SELECT 1 AS n UNION ALL SELECT 2 AS n FROM t WHERE n = 5 UNION ALL SELECT 5 AS n FROM t WHERE n = 1)`: SQL has 1, 5, 2; here 2 is missing.
* `C76_joined_violated`: **C76 is false when the recursion is a joined table**: `SELECT e.n FROM e JOIN t ON e.m = t.n` inside `t` finds `t` empty. (`e` holds m = 1, n = 2: SQL gives 1, 2.)
* `C76_column_list_violated`: **C76 is false for column lists**: `WITH RECURSIVE t (n) AS (SELECT 1 UNION ALL SELECT n + 1 FROM t WHERE n < 3)` has one row, without a column n; SQL has 1, 2, 3.
* `C76_list_ignored_violated`: The column list is never looked at, nor is the difference of UNION and UNION ALL.
* `C76_union_cycle_violated`: **C76 is false for UNION over a graph with a cycle**: a recursion whose rounds never become empty does not end here, where UNION ends. `WITH RECURSIVE t AS (SELECT 1 AS n UNION SELECT 3 - n AS n FROM t)`.
* `C77_unselected_violated`: 
* `C77_alias_violated`: 
* `C78_star_drops_violated`: **C78 is false for `*` over a table after other columns**: they are dropped without an error (`SELECT a + 1 AS x, * FROM t`).
* `C78_star_first_violated`: **C78 is false for `*` over a table before other columns**: the statement is refused (`SELECT *, a + 1 AS x FROM t`).
* `C78_star_joins_violated`: **C78 is false for `*` beside joins**: the columns of the joined tables are missing, whatever they are; SQL has them all.
* `C78_star_joins_subquery_violated`: The same for a subquery in FROM.
* `C78_table_star_violated`: **C78 is false for `t.*` of a table**: it is refused.
* `C78_own_name_violated`: **C78 is false for a table without an alias**: its own name does not mean it (`SELECT t.a FROM t` is refused).
* `C78_unqualified_violated`: **C78 is false for a column of a joined table without its table**: it is looked up in the FROM table.
* `C78_same_names_violated`: **C78 is false for equal names**: a result never has two columns of the same name; of two items with the same alias the second takes the place of the first.
* `C83_refused_file`: **C83**: when a file cannot be read or one of its statements is refused, none of its statements runs, and no session is changed but the global one.
* `C84_explain_violated`: **C84** (violated): EXPLAIN of a query has the query's effects.
* `C86_violated`: **C86 is violated**, concretely: script `[1, 9, 2]` fails at 9; submitting the script `[3]` then runs 2, which was never resubmitted.
* `C87_sum_all_null_violated`: **C87 is violated** by SUM over a group with only NULLs: 0 instead of NULL.
* `C87_group_concat_all_null_violated`: **C87 is violated** by GROUP_CONCAT over a group with only NULLs: the empty text instead of NULL (its result is a text by type).
* `C88_larger_first_violated`: **C88, last clause is violated**: `NTILE(4)` of 10 rows makes buckets of 3, 2, 3, 2 rows; SQL makes 3, 3, 2, 2.
* `C89_mixed_violated`: **C89 is violated** for a number and a numeric text: the first operand decides the kind of comparison.
* `C90_mod_sign_violated`: **C90 is violated** for operands of different signs: `-7 MOD 3` is 2, SQL's is -1.
* `C91_elt_violated`: **C91 is violated by ELT**: the last candidate is never returned, and ELT(0, …) returns it instead of NULL.
* `C91_find_in_set_violated`: FIND_IN_SET of the empty text in the empty text is 1 (SQL: 0), and a number is never found.
* `C91_field_null_violated`: **C91 is violated by FIELD**: of NULL it is NULL whatever the candidates, where the documentation of MySQL says 0.
* `C92_negative_decimal_refused`: **C92 is violated** for negative decimals: `SET x = -<digits>.<digits>` is never a number for the SET parser (it raises), and the other parser returns the text.
* `C93_round_default_violated`: **C93 is violated** by the function behind ROUND with one argument: it keeps two decimals instead of giving the nearest integer (and from SQL it is not even called like this: `C93_round_call_violated`).
* `C93_round_call_violated`: **C93 is violated by ROUND with one argument**: it is NULL, for every argument.
* `C94_dayofweek_violated`: **C94 is violated by DAYOFWEEK**: it counts from Monday = 1 (MySQL: Sunday = 1) for every date.
* `C94_week_mode1_violated`: MySQL's WEEK(x, 1) is the ISO week (the week with four days in the new year is the first): 2019-01-01, a Tuesday, is in week 1; here it is in week 0.
* `C94_yearweek_violated`: C94 (violated by YEARWEEK): a year that does not begin on a Sunday begins within a week; December 31st and January 1st, in the same week, never have the same YEARWEEK.
* `C95_pipe_without_argument_violated`: **C95 is violated**: text piped into the program without argument (`echo "select 1" | syncany-sql`) is never run.
* `C96_trim_crash_violated`: C96 (violated for trimming): a start that has to trim can be cut so that no text at all is left.
* `C97_unixtime_violated`: C97 (violated): on a machine one hour ahead of UTC, UNIX_TIMESTAMP(FROM_UNIXTIME(t)) is an hour early, for every `t`.
* `C98_shell_violated`: **C98** (violated): a name with any other ending is not refused but handed to the shell.
* `C99_intermediate_reduce_never_released`: **C99 is violated** when batches are reduced in between: an intermediate reduction announces itself as a reader of the collection it rewrites but never releases it, so the end of the final reader does not delete the data (it stays until the whole statement ends).
* `C100_context_push_violated`: **C100 is violated**: pushing through a context or through the module function always raises and stores nothing.
* `C100_failed_init_violated`: **C100 is violated** by failing init files: the exception is raised once; afterwards the engine works without them.
* `C100_nested_context_violated`: **C100 is violated by nested contexts**: leaving the inner one leaves no current context instead of the outer one.
* `C101_scalar_length_violated`: Scalars have length 1 in MySQL; here 0.
* `C101_contains_element_violated`: Containment in MySQL's sense is more than equality: an array contains its elements. Here it does not: JSON_CONTAINS('[1,2]', '1', '$') = 0.
* `C101_contains_part_violated`: … and an object its parts: JSON_CONTAINS('{"a":1,"b":2}', '{"a":1}', '$') = 0.
* `C101_null_member_violated`: A member whose value is JSON `null` is reported as missing (MySQL reports it): JSON_CONTAINS_PATH('{"a":null}','one','$.a') = 0.
* `C102_month_unit_violated`: TIMESTAMPDIFF in months counts blocks of thirty days, in years of 365 days: no month passes between 2023-02-01 and 2023-03-01.
* `C102_datediff_sign_violated`: **DATEDIFF has the opposite sign of MySQL's**: for every pair of days at the same time of day, DATEDIFF(later, earlier) is minus the number of days between them.
* `C102_datediff_time_violated`: … and it does not ignore the time of day: from 2024-01-01 23:00 to 2024-01-02 01:00 no day has passed.
* `C102_wraps_violated`: A day of seconds wraps around: SEC_TO_TIME(90000) reads 01:00:00 (MySQL: 25:00:00).
* `C103_use_violated`: **C103** (violated): a file that exists but cannot be imported under its path is not usable as a source, and ` AS ` in capitals is taken for part of the module's name.
* `C104_right_zero_violated`: **C104 is violated by RIGHT(s, 0)**, which is the whole text, for every text.
* `C104_negative_violated`: **C104 is violated by negative counts** (SQL: the empty text): LEFT(s, -n) drops the last `n` characters and RIGHT(s, -n) the first `n`.
* `C104_substring_negative_violated`: **C104 is violated by SUBSTRING from the end**: SUBSTRING(s, -n) gives `n + 1` characters instead of `n` (and SUBSTRING(s, 0) the last character instead of the empty text).
* `C104_null_argument_violated`: NULL arguments: LEFT(s, NULL) and SUBSTRING(s, n, NULL) are not NULL.
* `C105_insert_violated`: **C105 is violated by INSERT at a position outside the text** (SQL leaves the text alone): position 0 doubles most of it, a position after the end appends.
* `C105_replace_empty_violated`: **C105 is violated by REPLACE of the empty text** (SQL: unchanged).
* `C106_negative_violated`: **C106 is violated for negative counts**: SUBSTRING_INDEX('a.b.c', '.', -1) is 'b.c' instead of 'c'.
* `C107_width_violated`: **C107 is violated**: numbers are not 64 bits wide. `~a` is negative instead of `2^64 - 1 - a`, and bits shifted out are kept: `a << n` with `n ≥ 64` is 0 in SQL.
* `C107_fraction_violated`: **C107 is violated** for fractions: they are cut off, not rounded: `2.7 & 3` is 2 (SQL: 3).
* `C108_null_key_violated`: **C108 is violated** by NULL keys: JSON_OBJECTAGG(NULL, 1) is {"None": 1} instead of an error.
* `C108_arrayagg_null_violated`: **C108 is violated** by NULLs: SQL's JSON_ARRAYAGG keeps them.
* `C109_operation_ignored_violated`: **C109 is false for the other operations**: the operations are not looked at. Whatever they are, the result is that of UNION ALL.
* `C109_except_violated`: `SELECT 1 AS a EXCEPT SELECT 1 AS a` returns 1 twice instead of nothing.
* `C109_intersect_violated`: `SELECT 1 AS a INTERSECT SELECT 2 AS a` returns both instead of nothing.
* `C109_parentheses_refused`: **C109** A SELECT in parentheses inside a set operation is refused, wherever it stands.
* `C110_accent_violated`: `'café'` becomes `'cafÃ©'`.
* `C110_sign_violated`: **C110** The sign before anything but a number literal is accepted as a constant and lost: `-@a` is `@a`, `-x'1F'` is 31, `-'5'` is `'5'`.
* `C110_negated_variable_violated`: … so with `@a = 5`, `SELECT -@a` is 5, not -5.
* `C110_bits_violated`: **C110** A bit string is accepted as a constant and is NULL.
* `C111_december_violated`: **C111 is violated by every addition that leads to a December**: NULL, for every date.
* `C111_feb29_violated`: **C111 is violated by February 29th**: adding years that lead to a common year gives NULL (MySQL: February 28th).
* `C111_negative_violated`: **C111 is violated by negative numbers of months** (INTERVAL '-1' MONTH): DATE_ADD of -1 month to 2024-03-15 is 2025-02-15.
* `C111_microsecond_violated`: **C111 is violated by MICROSECOND**, which counts seconds.
* `C111_text_two_violated`: `a:b` is hours and minutes in MySQL, minutes and seconds here.
* `C112_avg_parts_violated`: **C112 is violated** by AVG with NULLs: the average of (1), (NULL) depends on whether the two rows are aggregated together (1/2) or in two parts (1).
* `C112_json_objectagg_parts_violated`: **C112 is violated** by JSON_OBJECTAGG for all non-empty parts: combining two parts loses everything (the reduce step returns the result of `dict.update`, which is `None`).
* `C112_avg_batches_violated`: **C112 is violated** by AVG: the rows (1), (NULL) of one group give 1/2 in one batch and 1 in two batches.
* `C112_json_objectagg_batches_violated`: **C112 is violated** by JSON_OBJECTAGG: two batches of one group lose everything.
* `C113_sum_violated`: **C113 is violated** by SUM over a text that does not convert: ignored after a number, an error before it.
* `C113_max_mixed_violated`: **C113 is violated** by MAX over a group mixing numbers and numeric texts: the type of the first value decides.
* `C113_sum_parts_violated`: **C113 is violated** by SUM when a part starts with a text that does not convert.
* `C114_limit_zero_violated`: **C114 is violated by LIMIT 0**, which gives every row after the offset instead of none: it is wrong whenever there is one.
* `C114_distinct_violated`: **C114 is violated by SELECT DISTINCT** (and GROUP BY without aggregates), which are compiled after the LIMIT: from the rows 1, 1, 2, SELECT DISTINCT … LIMIT 2 gives only 1.
* `C115_with_leftovers_violated`: **C115** "The statement leaves nothing behind but its result" is false with a WITH clause: the collection of the named query has the user's name, is not counted as temporary and keeps its rows; the same statement run again reads them twice.
* `C116_hex_empty_violated`: Violation: HEX of the empty text is not empty, and not undone by UNHEX.
* `C116_prefix_violated`: Violation: HEX and BIN of a number are not digits: they begin with Python's prefix, so they do not denote the number (nor any number), for any number; what follows the prefix does.
* `C116_unhex_number_violated`: Violation: so UNHEX does not undo HEX of any number.
* `C116_oct_negative_violated`: Violation: OCT of a negative number begins with the letter `o`; of a text or a fraction it is NULL, and so is BIN of a text.
* `C116_ord_violated`: Violation: ORD of any text but a single character is NULL.
* `C116_ascii_violated`: Violation: ASCII adds the codes of all characters; it is the code of the first one, as SQL says, only when the others are NUL characters.
* `C116_char_null_violated`: Violation: a NULL among the arguments of CHAR makes the result NULL instead of being skipped, and so does a text of digits.
* `C116_crc32_violated`: Violation: CRC32 of every text is NULL.
* `C116_inet_violated`: Violation: applied directly, the result is NULL for every address: the one gives a text, the other takes bytes.
* `C116_unhex_empty_violated`: C116 (violated): UNHEX of UNHEX of the empty text is NULL, not empty.
* `C117_default_key_violated`: **C117 is violated by the keys of the default configuration**: a session starts with a copy of the defaults as its own settings, so a plain key of the defaults hides whatever the parent has set.
* `C118_stale_violated`: **C118 is violated between sessions**: once a session has read its configuration, no write to its parent is seen by it.
* `C118_null_violated`: **C118 is violated by NULL**: setting a plain key to NULL in a session does not remove what it inherits.
* `C118_bad_json_violated`: A write of a database that is not JSON wipes its properties: SET @databases.m = 'x' leaves only the name.
* `C119_specifiers_violated`: C119 (violated, for every date): %c, %D, %h, %i, %M and %W are not what MySQL puts; they are a whole date, a date with slashes, the name of the month, the letters themselves, the minute, and the number of the week.
* `C119_rest_violated`: C119 (violated): %e has a space before the days 1 to 9; the years before 1000 are not four digits; `%%v` is not `%v`; what is no specifier keeps its `%`.
* `C119_blank_hour_violated`: 
* `C119_day_of_week_violated`: 
* `C120_config_name_violated`: **C120** (violated): a variable whose name begins with `config` cannot be set: a setting is written instead.
* `C120_global_config_violated`: **C120** (violated): `SET GLOBAL` of a setting raises, after having changed the global configuration.
* `C120_global_expression_violated`: **C120** (violated): `SET GLOBAL @x = expression` does not change the global variables, whatever the expression.
* `C120_inherited_violated`: **C120** (violated): in `SET @x = expression` a value of `@x` inherited from the caller reads as NULL.
* `C120_prefix_violated`: **C120** (violated): the word GLOBAL is taken from the beginning of any name, and SESSION is taken for part of the name.
* `C121_no_columns_refused`: **C121** Without a column list `INSERT INTO t VALUES …` is refused.
* `C121_mixed_violated`: **C121** The first number of a column decides its type: in `INSERT INTO t (a) VALUES (i), (q)` the decimal number is not stored if the `int` filter makes whole numbers.
* `C121_expression_violated`: **C121** A value that is not a constant, as in `VALUES (1 + 2)`, is stored as NULL without an error.
* `C122_cycle_violated`: **C122 is violated by a cycle** of references (`ON b.x = b.y` is one: a table that refers to itself): the recursion never ends.
* `C122_between_violated`: **C122 is violated by BETWEEN** on a column of a joined table: it does not compile.
* `C122_between_scope_violated`: … and on a column of the primary table beside a joined one it reads the wrong table: `IF(a.x BETWEEN 1 AND 5, b.y, 0)` with `a.x = 3`, `b.x = 9`, `b.y = 7` gives 0 instead of 7.
* `C124_home_wins_violated`: **C124 is violated**: for any two different directories with a configuration file each, whatever these say differently about a setting, there is an order of the set of file names with which the current directory's setting is seen and one with which the home directory's is.
* `C124_witness_violated`: The hypotheses are met, and C124, C127 and C129 are violated in a small world: the same files give time zone `B` or `A`, the CSV database's own encoding is replaced, and the script of the common base is run twice.
* `C127_global_wins_violated`: **C127 is violated**: a global encoding or date format replaces the one a textline, JSON or CSV database says itself, whatever that is; the global setting is not a default but an override.
* `C129_twice_violated`: **C129 is violated**: when two of the loaded files extend the same file, its scripts are run twice; in general a script is run at least as often as the file naming it is read.
* `C131_percent_violated`: **C131 is violated**: text of the view that looks like a positional parameter stays as it is, so from there on the positional parameters and the conditions that supply their values are shifted against each other.
* `C131_default_violated`: **C131 is violated**: a parameter whose text also ends the default of a later one is replaced inside that default, and the later parameter stays in the text of the query: `#{a} #{b:#{a}` becomes `%s #{b:%s`.
* `C132_order_violated`: **C132 is violated by ORDER BY a column of a joined table** that has the name of a result column made of something else: the result column is sorted on. In `qo` the rows 1 (with `B.v` 7) and 3 (with `B.v` 4) are returned in this order.
* `C132_order_refused`: … and a column of a joined table that is no result column is refused in ORDER BY.
* `C134_refused`: **C134**: a query whose INNER JOINs have no comparison that ties them to the primary table is refused.
* `C137_three_violated`: **C137 is violated by three types**: the compiled column of `a[t;u;v]` does not depend on `u`, so that no meaning of compiled columns is right for all of them: there are conversions for which `a[int;str;bool]` and `a[int;float;bool]` must differ.
* `C138_order_violated`: **C138 is violated by a cast of an annotated column**: `CAST(a[t] AS f)` is not `a[t]` converted to `f`, for any two different conversions.
* `C138_where_violated`: **C138 is violated by WHERE conditions on casts**: the pushed condition of `CAST(a AS T) = x` is that of `a = x`, for every `T`, so that whatever the data source does, one of them is wrong on a row where the conversion matters.
* `C138_where_second_violated`: … and by the second type of an annotation.
* `C138_subquery_violated`: **C138 is violated by subqueries**: comparing a column with a subquery works exactly when the column has no conversion (otherwise TypeError).
* `C139_alias_violated`: **C139 is violated by a bare column with the name of a result column**: the result column is the filter. `SELECT b AS a FROM t WHERE a` returns the row a = 0, b = 5.
* `C140_too_many_violated`: **C140 is violated by too many arguments**: such a call of any other function ends the query.
* `C140_default_violated`: **C140 is violated by defaults**: in a call of any other function an argument that is left out is NULL, not its default.
* `C141_capitals_violated`: **C141 is violated by names with capitals** (and by the reserved names): what is registered under them is never called.
* `C142_log_default_violated`: **C142 is violated by LOG with one argument**: it is NULL, for every argument, and not the logarithm to the default base.
* `C144_scope_violated`: **C144 is violated by names read outside of their scope**: in `leaking` the outer `m` is a table without rows, but the statement returns the rows of the named query of another part.
* `C145_columns_violated`: **C145 is violated by every other list of columns**: as soon as there is a row, what is stored is not what SQL stores, whatever the result of the SELECT is: the names of the SELECT are stored, not those of the list.
* `C145_count_violated`: **C145 is violated by a list of another length**: it is not refused.
* `C145_with_violated`: **C145 is violated by a WITH after INSERT INTO**: it is not looked at; `insertWith` stores nothing, though the SELECT has two rows.
* `C146_union_violated`: **C146 is violated by UNION**: the way of writing that the options ask for is not looked at; the rows of a UNION are always inserted (`I`).
* `C147_join_violated`: 
* `C148_neg_violated`: **C148 is violated**: `SELECT -@a AS x` prints the value of `@a`, without the sign; `SELECT -(@a) AS x` prints -3.
* `C148_ifnull_violated`: **C148 is violated**: `SELECT IFNULL(@a := @a + 1, 0) AS x` with `@a = 3` prints 5 and leaves `@a` at 5: the assignment is evaluated twice.
* `C149_where_in_violated`: **C149 is violated**: `WHERE c IN (@a, 1)` uses the value `@a` has when the statement is compiled, before any statement of the same script has run; `WHERE c IN (@a + 0, 1)` the one it has when the query runs.
* `C149_where_in_neg_violated`: **C149 is violated**: `WHERE c IN (-@a)` looks for the value without its sign.
* `C150_literal_violated`: Blocks are replaced in string literals as well: `select '/*raw(g.c) [] endraw*/'` becomes `select 'g.c'`.
* `C151_value_cut_violated`: **C151 is violated** for every value with `=` in it: `--k=v=w` gives only `v`.
* `C151_quoted_cut_violated`: **C151 is violated** for quoted values with `=`: the closing quote is no longer there, and the last character before the `=` is lost instead.
* `C152_environment_violated`: **C152 is violated**: in every process whose environment has a variable called like an option (`LIMIT`, `BATCH`, `TIMEOUT`, `VERBOSE`, …), every statement runs with the text of that variable as the option, although nobody set it.
* `C154_capitals_violated`: **C154 is violated**: `exit` written with a capital, without a `;` behind it, is an exit command to the loop, but the prompt never submits it: it asks for more lines.
* `C156_alias_violated`: C156 violated: for every dictionary, every key and every plain value that is not yet there, `SELECT doc, JSON_SET(doc, '$.k', w)` shows the changed dictionary in both columns.
* `C156_cycle_violated`: C156 violated: for every dictionary and key, the value of `JSON_SET(doc, '$.k', doc)` is no document: it contains itself.
* `C157_unused_violated`: C157 is violated by a joined table that the query does not use: `SELECT a.x FROM a LEFT JOIN b ON 1 = 1` and `SELECT a.x FROM a, b` are refused. (`C157_join_accepted` has no other condition about this, so the queries with the right ON are refused for this exactly.)
* `C160_null_combinations_violated`: **C160 is violated by every group in which some value is NULL**: COUNT(DISTINCT a, b, …) is then larger than SQL's.
* `C161_refused`: **C161** DISTINCT is refused in every aggregate but COUNT; so is a name that is no aggregate, and `*` anywhere but in COUNT.
* `C161_arguments_violated`: **C161 is violated for every call with a second argument**: it is ignored. COUNT(a, b) is COUNT(a), the separator of GROUP_CONCAT(a, ';') is lost.
* `C162_old_value_violated`: **C162 is violated** when the variable has a value before something is selected INTO it: the old value counts.
* `C162_file_violated`: **C162 is violated** by names of files that are selected INTO a variable: they are taken as names of tables in memory.
* `C162_null_violated`: **C162 is violated** by a variable that is NULL: the table named `None` is read.
* `C163_no_rows_violated`: **C163 is violated** by an aggregate without GROUP BY over no rows: there is no value, whatever SQL's value is (as COUNT's 0), for every subquery tied to the outer query by equalities.
* `C163_distinct_violated`: **C163 is violated** by DISTINCT when the subquery is tied to the outer query by another condition than equalities: the columns of that condition are made distinct as well. `SELECT DISTINCT t.k FROM t WHERE t.d < o.d`: SQL gives 1 once.
* `C164_refused_does_nothing`: C164: while a script is compiled no table and no result changes; so a script one statement of which is refused changes no table and shows nothing, not even for the statements before it.
* `C164_with_violated`: C164, first violation: the same statement with a WITH twice in a script shows its row once, then twice, where SQL shows it once each time: the rows of the named query are still there (C115).
* `C166_untyped_violated`: **C166, negated**: a mark on a column written without types is not seen, whatever the column: in ``SELECT a, `b<pk>` FROM t`` the key is `a`, not `b` (and the column that is read is the one named `b<pk>`).
* `C166_joined_mark_violated`: **C166, negated**: a marked column of a joined table is also among those by which the table of FROM is read.
* `C167_star_violated`: **C167, negated**: of `SELECT *` from a table no column is taken, whatever the table (SQL: its only column).
* `C167_not_in_empty_violated`: **C167, negated**: `a NOT IN (SELECT …)` with no rows in the subquery: SQL's TRUE for every row, here rows with NULL are lost.
* `C167_left_violated`: **C167, negated**: `(SELECT …) < a` is taken for `a < (SELECT …)`.
* `C167_many_rows_violated`: **C167, negated**: a subquery with several rows is compared by its first row (SQL refuses the query).
* `C167_typed_violated`: **C167, negated**: `a[int] = (SELECT …)`, `a[int] IN (SELECT …)` and CASTs of columns in their place are refused, whatever else the clause demands.
* `C169_like_violated`: **C169, negated**: 'abcdef' LIKE 'abc' is kept (SQL: not), 'abc' LIKE 'a_c' is not, 'abc' LIKE 'a.c' is, 'axb' LIKE 'a%%b' is not, 'a%b' LIKE 'a%%b' being the only such text that is.
* `C169_case_violated`: **C169, negated**: the same condition is case-insensitive in WHERE and in the select list (`same`), and case-sensitive in HAVING.
* `C169_typed_violated`: **C169, negated**: a column with a typing filter (or a CAST of one) next to a subquery is refused.
* `C169_many_rows_violated`: **C169, negated**: a subquery with several rows is compared by its first row (SQL refuses the query).
* `C170_paren_violated`: **C170**, `SELECT (a + 1)`: refused for its parentheses, although `SELECT a + 1` and `SELECT (a + 1) AS b` are accepted; for every expression.
* `C170_mixed_violated`: **C170**, an aggregate next to a window, `SUM(a) OVER (ORDER BY b) + SUM(c)`: SQL has one row per group, here the statement is not grouped.
* `C170_window_violated`: **C170**, an aggregate inside a window, `RANK() OVER (ORDER BY COUNT(*))`: the same.
* `C170_interval_violated`: **C170**, an aggregate inside INTERVAL, `a + INTERVAL COUNT(*) DAY`: the same.
* `C171_joins_violated`: **C171 is violated for every SELECT of this form with joins or DISTINCT**: they have no effect.
* `C171_alias_violated`: **C171 is violated by the alias of a column**: `SELECT f('x') AS y FROM (…) t` calls the function for each row, `SELECT f('x') FROM (…) t` once with all the rows, whatever the function is (also an aggregate, or one of a single value): for every ordinary SELECT that has as many rows as are read, and a function that gives a number of rows other than that.
* `C172_refused`: **C172**: it is refused exactly if an argument after the first is neither a constant (or variable) nor a list.
* `C172_null_violated`: **C172 is violated for the key NULL**, and a variable that has no value when the statement is compiled: it is the member named `None`.
* `C172_list_violated`: **C172 is violated for lists with texts, NULLs or expressions among their members, and with more than three members**: those that are no constant numbers and those after the third number do not count.
* `C173_curdate_violated`: **C173 is violated by every two time zones with different clocks**: there are instants at which CURDATE is not the date of CURRENT_TIMESTAMP.
* `C173_statement_violated`: **C173 is violated by statements that take time**: CURRENT_TIMESTAMP has the same value in all rows only if all were computed at the same instant (for a zone whose clocks do not change meanwhile).
* `C174_into_violated`: **C174 is violated** by SELECT … INTO of a query that is run in two passes, as of AVG: the variable becomes the empty list, whatever the rows of the query are, and the rows stay in the memory database.
* `C174_correlated_violated`: **C174 is violated** by a correlated subquery that is run in two passes: it loads nothing, whatever its rows are (they stay in the memory database).
* `C175_set_after_violated`: C175, first violation: `SELECT @x AS b FROM t; SET @x = 2` in one script shows 2, where SQL shows the 1 that the variable is when the SELECT is done.
* `C175_values_violated`: C175, second violation: `SELECT @x AS b FROM t INTO @y; INSERT INTO u (b) VALUES (@y)` in one script inserts NULL, where SQL inserts the 1 that INTO has stored.
* `C176_subquery_violated`: **C176 is violated by a subquery that yields**: the statement goes on with what the subquery has given so far, and when it has ended the rest is dropped: of two rows only the first arrives. Without `@streaming` both do.
* `C176_cleared_violated`: **C176 is violated by a statement that yields before it reads its subquery**: in between the rows of the subquery are deleted, unless the database calls the collection streaming.
* `C176_average_violated`: **C176 is violated by AVG** (and COUNT(DISTINCT), GROUP_CONCAT, every aggregate with a final step): with `@streaming` the column holds the state of the calculater, the number of rows and their sum, whatever the rows; without, the average.
* `C177_lost_violated`: **C177 is violated**: a signal during the second pass of a query, in a statement without a query, between two statements or while statements are compiled is lost: all that follows is done as if there had been none.
* `C178_string_violated`: **C178 is violated by documents that are texts**: a text found in a document is read once more when it happens to be JSON: JSON_DEPTH and JSON_LENGTH of the text `[1, [2, 3]]` (as `JSON_EXTRACT('{"a": "[1, [2, 3]]"}', '$.a')` gives it) are those of the list, where a text has depth 1.
* `C178_valid_violated`: **C178 is violated by JSON_VALID**: of NULL and of numbers it is 1, where the documentation of MySQL says NULL and 0.
* `C179_unknown_refused`: A column of a table that is not in the query, in the select list, an argument of an aggregate, an expression of GROUP BY, or WHERE: the query is refused.
* `C179_on_refused_partial`: A column of a table that is not in the query, in a conjunct of ON that relates columns: the query is refused.
* `C179_constant_violated`: C179 is violated by conjuncts of ON that compare a column with a constant: whatever table the column is of, it is taken as a column of the joined table. (`… LEFT JOIN b ON b.id = a.id AND zzz.kind = 1` is the query with `b.kind = 1`.)
* `C179_order_violated`: C179 is violated by ORDER BY: a table that is neither the primary table nor joined is ignored, the order is by the result column of the name.
* `C180_unknown_refused`: A comparison in HAVING with a column, with or without its table, whose name is that of no result column: the query is refused.
* `C180_table_violated`: C180 is violated: the table is ignored. A comparison of `t.c` keeps what the comparison of `u.c` keeps, for all tables.
* `C180_other_column_violated`: C180 is violated: the row (1, 7) is to be returned by `hbad`, as B.v is 7; it is not.
* `C180_expression_violated`: A table in an expression of HAVING (that is not just a column) is refused.
* `C180_list_violated`: In the list of an IN it is not refused: there it is NULL, as the result has no such column.
* `C181_nothing_violated`: **C181 is violated when a wildcard finds nothing**: the answer is an empty list, where SQL has NULL.
* `C181_members_violated`: **C181 is violated by `.*`**: of every object it is the object itself instead of the list of its members' values, and with a name after it the member of that name of the object itself.
* `C181_nested_violated`: **C181 is violated by two wildcards**: `[*][*]` of every array are its elements that are not NULL, not the elements of these.
* `C181_quoted_violated`: **C181 is violated by MySQL's way to quote names**, `."name"`: the member looked for is the one whose name holds the quotes.
* `C181_star_name_violated`: **C181 is violated by `["*"]`**, which is the wildcard and not the member named `*`.
* `C181_set_violated`: **C181 is violated by JSON_SET with a wildcard**, which SQL refuses: a member named `*` is put in.
* `C183_parent_violated`: **C183 is violated between sessions**: once a session has submitted a query, no SET of its parent reaches its queries.
* `C185_like_violated`: **C185 is violated**: `SELECT a FROM t WHERE c LIKE 'a'` returns the row with `'abc'`; SQL, where `'abc' LIKE 'a'` is false, does not.
* `C187_unprefixed_violated`: **C187 is violated by functions whose names in the files do not begin with `mysql_`** (json_funcs.py:187: JSON_ARRAY_APPEND): calls never reach them, whatever they are.
* `C187_key_violated`: The same for functions that the parser knows: a class whose key is not the name in the files.
