{"id": "C01", "title": "Script splitting recovers every statement", "statement": "Splitting a script that is the concatenation of well-formed statements (each starting with a letter, made of plain characters, terminated quoted literals in ', \" or `, with no bare comment marker), each followed by ';' and by arbitrary filler of non-letters between them, returns exactly those statements' texts, in order, nothing more and nothing less.", "quantifier": "every list of well-formed statements, every quoted content, every filler", "why_tests_cant": "Quoted literals, escapes and separators compose in unboundedly many ways; a test suite samples a few scripts.", "anchors": ["syncanysql/parser.py: SqlParser.split, SqlParser.skip_escape"]}
{"id": "C02", "title": "Split segments are located substrings with right line numbers", "statement": "Whenever splitting succeeds, every returned statement is a non-empty substring of the script starting with a letter, statements appear in script order without overlap, and its reported line number is 1 plus the number of newlines before it.", "quantifier": "every script on which split succeeds", "why_tests_cant": "The invariant ties index, line counter and start offset on every path of the scanner, including comment and quote paths.", "anchors": ["syncanysql/parser.py: SqlParser.split, SqlParser.next"]}
{"id": "C03", "title": "Comments are inert", "statement": "The content of a comment (# or -- to end of line, /* */ block) never influences which statements are returned. [The code violates this when the comment contains a quote character, or '*' follows a block comment.] ", "quantifier": "every comment content and every surrounding script", "why_tests_cant": "The content of comments is unbounded and the failures need particular characters at particular places.", "anchors": ["syncanysql/parser.py: SqlParser.split, SqlParser.read_util"]}
{"id": "C04", "title": "Splitting terminates and fails only on unterminated text", "statement": "Splitting every string terminates, and can only fail with end-of-input when some quoted literal or block comment is still open at the end of the script; a script without quote characters and without '/*' is always split successfully.", "quantifier": "every string", "why_tests_cant": "Termination and error characterisation quantify over all strings.", "anchors": ["syncanysql/parser.py: SqlParser.split, SqlParser.skip_escape, SqlParser.read_util"]}
{"id": "C05", "title": "Quoted literals end exactly at the first unescaped matching quote", "statement": "Scanning a quoted literal consumes exactly up to and including the first matching quote that is preceded by an even number of backslashes, whatever the literal contains; it fails iff there is none.", "quantifier": "every quote character, every text", "why_tests_cant": "Depends on parity of arbitrarily long backslash runs.", "anchors": ["syncanysql/parser.py: SqlParser.skip_escape"]}
{"id": "C06", "title": "Back-quoted identifier rewriting is invertible", "statement": "Replacing non-alphanumeric back-quoted identifiers by generated tokens and then mapping generated tokens back gives the original SQL text, provided generated tokens are fresh.", "quantifier": "every SQL text and every fresh-name supply", "why_tests_cant": "Round trip over all texts, with all numbers of quoted identifiers.", "anchors": ["syncanysql/compiler.py: Compiler.parse_mapping, Compiler.to_sql"]}
{"id": "C07", "title": "Variable substitution replaces every placeholder by its current value and nothing else", "statement": "Substituting ${name} placeholders leaves text outside placeholders untouched, replaces each placeholder with the formatted value of the variable (default text when undefined), and inserted values are not re-interpreted. [Violated when an inserted value itself contains the text of a later placeholder.]", "quantifier": "every SQL text and every variable environment", "why_tests_cant": "The interaction between substituted values and later placeholders only shows up on adversarial values.", "anchors": ["syncanysql/executor.py: Executor.compile_variable"]}
{"id": "C08", "title": "Variable lookup follows the context chain", "statement": "A variable read in a context returns the value of the nearest enclosing context that defines it (exact name first, then the name without '@'), and fails exactly when no enclosing context defines either.", "quantifier": "every chain depth, every contents, every key", "why_tests_cant": "Chains and histories are unbounded.", "anchors": ["syncanysql/executor.py: EnvVariables.get_value, EnvVariables.get"]}
{"id": "C09", "title": "Contexts are isolated and read their own writes", "statement": "After any history of set_variable calls on any contexts of a tree, get_variable in a context returns the latest value written in that context, otherwise what its parent returns; writes in one context never change what any context that is not its descendant reads.", "quantifier": "every history of writes over every context tree", "why_tests_cant": "Quantifies over histories and trees of contexts.", "anchors": ["syncanysql/__init__.py: ExecuterContext.set_variable, get_variable, context", "syncanysql/executor.py: EnvVariables"]}
{"id": "C10", "title": "Queued statements run once, in submission order", "statement": "Executing the queue runs every queued statement exactly once and in the order submitted, whatever the number of run() calls that queued them, as long as none fails or yields.", "quantifier": "every sequence of run/execute calls", "why_tests_cant": "Histories are unbounded.", "anchors": ["syncanysql/executor.py: Executor.run, Executor.compile, Executor.execute"]}
{"id": "C11", "title": "A failed statement stops the script", "statement": "When a statement of a script fails while the script is executed, the statements before it have run once, in order, and none after it is run by that call; at the interactive prompt none of them ever runs unless it is entered again.", "quantifier": "every script without streaming queries, every point of failure", "why_tests_cant": "Needs all positions and all later histories.", "anchors": ["syncanysql/executor.py: Executor.execute", "syncanysql/prompt.py: CliPrompt.run"]}
{"id": "C12", "title": "SET takes effect in statement order", "statement": "A SET statement assigns after all the statements before it in the script ran and before all those after it. [Violated: assignment happens when the script is compiled, before any queued query runs.]", "quantifier": "every script mixing SET and SELECT ... INTO", "why_tests_cant": "Ordering over all scripts.", "anchors": ["syncanysql/taskers/set.py: SetCommandTasker.start", "syncanysql/executor.py: Executor.run"]}
{"id": "C13", "title": "SELECT ... INTO stores the shape promised by the result", "statement": "SELECT INTO one variable stores the scalar for one row and one column, a list for several rows of one column, a mapping for one row and several columns, a list of mappings otherwise; with several variables the i-th gets the i-th column (scalar for a single row, list of column values otherwise), surplus variables get NULL; a SELECT of one column with rows into several variables, or of * into several, is refused.", "quantifier": "every result set, every number of columns and variables", "why_tests_cant": "All sizes of results.", "anchors": ["syncanysql/taskers/into.py: IntoTasker.run"]}
{"id": "C14", "title": "Session configuration precedence", "statement": "In a session that has not read its configuration before, the effective value of a plain key is the session's own value if it has one, else the parent configuration's, else the built-in default; mapping-valued sections are merged key by key with the same precedence and databases and caches by name and property.", "quantifier": "every key, every content of the three layers", "why_tests_cant": "All configurations, all key classes.", "anchors": ["syncanysql/config.py: SessionConfig.get, GlobalConfig.merge_config"]}
{"id": "C15", "title": "Configuration merging is idempotent and right biased", "statement": "Merging a configuration into another makes every entry of the merged one visible, keeps all entries with other names, and merging the same configuration twice is the same as merging once for the non-appending sections.", "quantifier": "every pair of configurations", "why_tests_cant": "All configurations.", "anchors": ["syncanysql/config.py: GlobalConfig.merge_config"]}
{"id": "C16", "title": "Configuration reads see earlier configuration writes", "statement": "After any history, a session that sets a plain key, or an entry of variables, defines, options, imports or sources, reads that value back.", "quantifier": "every history of set and get calls on a session and its parent", "why_tests_cant": "Histories are unbounded, the failure needs a particular interleaving.", "anchors": ["syncanysql/config.py: SessionConfig.get, SessionConfig.set, GlobalConfig.set"]}
{"id": "C17", "title": "Aggregates compute the SQL value", "statement": "COUNT, COUNT DISTINCT, MAX, MIN, GROUP_ARRAY and GROUP_UNIQ_ARRAY over a group equal the SQL definition applied to its non-NULL values; SUM, GROUP_CONCAT, BIT_AND, BIT_OR and BIT_XOR do so for groups with a value that is not NULL. (Numbers for SUM, integers for BIT_*, numbers or texts for MAX and MIN.)", "quantifier": "every list of values", "why_tests_cant": "All lists of values with all positions of NULLs.", "anchors": ["syncanysql/calculaters/aggregate_calculater.py"]}
{"id": "C18", "title": "AVG ignores NULL", "statement": "AVG equals the sum of non-NULL values divided by their number. [Violated: NULLs after the first non-NULL value are counted in the divisor.]", "quantifier": "every list of values", "why_tests_cant": "The failure depends on the position of the NULLs.", "anchors": ["syncanysql/calculaters/aggregate_calculater.py: AggregateAvgCalculater.aggregate"]}
{"id": "C19", "title": "Aggregates do not depend on row order", "statement": "COUNT and COUNT DISTINCT of any values, SUM of numbers, numeric texts and NULLs, MAX and MIN of numbers or of texts, BIT_AND, BIT_OR and BIT_XOR of integers give the same value for every permutation of the rows of a group.", "quantifier": "every list of values and every permutation", "why_tests_cant": "All permutations.", "anchors": ["syncanysql/calculaters/aggregate_calculater.py"]}
{"id": "C20", "title": "Partial aggregates combine to the whole aggregate", "statement": "For COUNT, COUNT DISTINCT, GROUP_CONCAT, GROUP_ARRAY, SUM of numbers, MAX and MIN of numbers or of texts, BIT_AND, BIT_OR and BIT_XOR of integers, combining the partial states of two parts of a group with the reduce step gives the state of the whole group.", "quantifier": "every list of values and every split", "why_tests_cant": "All splits of all lists.", "anchors": ["syncanysql/calculaters/aggregate_calculater.py: reduce methods"]}
{"id": "C21", "title": "Batch size does not change grouped results", "statement": "A GROUP BY query with COUNT, COUNT DISTINCT, GROUP_CONCAT, GROUP_ARRAY, SUM of numbers, MAX and MIN of numbers or of texts, BIT_AND, BIT_OR or BIT_XOR of integers gives for every group the same final value as processing all rows at once, for any batch size, any limit-triggered reduction, any division of rows in batches.", "quantifier": "every batch size, every sequence of batches, every sequence of reduce triggers", "why_tests_cant": "Schedules of intermediate reductions are unbounded.", "anchors": ["syncanysql/taskers/query.py: ReduceHooker.outputed, ReduceHooker.finaled, QueryTasker.run_reduce, QueryTasker.compile_reduce_config"]}
{"id": "C22", "title": "Temporary collections are released exactly after their last reader", "statement": "For any interleaving of uses and releases of a temporary collection, it is deleted when a reader ends exactly if this was the last announced reader, never while another one has not ended, and is forgotten afterwards; the end of a reader never touches another collection; at the end of the statement every collection not deleted before is still known.", "quantifier": "every sequence of add/use/unuse/free operations", "why_tests_cant": "All interleavings.", "anchors": ["syncanysql/taskers/query.py: QueryTaskerTemporaryMemoryManager"]}
{"id": "C23", "title": "Offset window functions select the right row", "statement": "ROW_NUMBER, FIRST_VALUE, LAST_VALUE, NTH_VALUE, LAG and LEAD return the value of the row at the position SQL defines in the ordered partition (frame: the whole partition), the default when there is no such row.", "quantifier": "every partition, every row, every offset and default", "why_tests_cant": "All partitions and offsets.", "anchors": ["syncanysql/calculaters/window_calculater.py"]}
{"id": "C24", "title": "NTILE partitions rows in n ordered buckets", "statement": "NTILE(n) assigns every row a bucket between 1 and n, non-decreasing along the order, whose sizes differ by at most one; n <= 0 gives NULL.", "quantifier": "every partition size and every n", "why_tests_cant": "All sizes.", "anchors": ["syncanysql/calculaters/window_calculater.py: WindowAggregateNtileCalculater"]}
{"id": "C25", "title": "RANK and DENSE_RANK", "statement": "RANK of a row is one plus the number of rows ordered strictly before it; DENSE_RANK one plus the number of distinct order values before it. [Violated as soon as there are three rows: the compared order value is never updated.]", "quantifier": "every ordered partition", "why_tests_cant": "All partitions.", "anchors": ["syncanysql/calculaters/window_calculater.py: WindowAggregateRankCalculater, WindowAggregateDenseRankCalculater"]}
{"id": "C26", "title": "PERCENT_RANK and CUME_DIST", "statement": "PERCENT_RANK is (rank-1)/(rows-1) and CUME_DIST is (rows at or before)/(rows), both within [0,1]. [Violated: operator precedence.]", "quantifier": "every ordered partition", "why_tests_cant": "All partitions.", "anchors": ["syncanysql/calculaters/window_calculater.py: WindowAggregatePercentRankCalculater, WindowAggregateCumeDistCalculater"]}
{"id": "C27", "title": "NULL operands give NULL", "statement": "Comparison, arithmetic, bit, NOT, IN, ABS, FLOOR, CEIL, SIGN and ROUND return NULL whenever an operand (of IN: the left one) is NULL; LEFT, RIGHT, SUBSTRING, REPEAT, REVERSE, TRIM, LENGTH, CHAR_LENGTH, SUBSTRING_INDEX and REPLACE do so for a NULL text and CONCAT for any NULL argument; an operand that is no number gives NULL instead of an error; IS NULL and IS NOT NULL are never NULL.", "quantifier": "every operand", "why_tests_cant": "All argument lists with NULL in all positions.", "anchors": ["syncanysql/calculaters/mysql_calculater.py", "syncanysql/calculaters/mysql_funcs/*"]}
{"id": "C28", "title": "Comparison operators are coherent", "statement": "For all operands <> is the negation of =, >= of < and <= of > (three-valued), and if a < b is not NULL exactly one of <, =, > holds; for two numbers or two texts a < b iff b > a, = is equality and < a transitive order.", "quantifier": "every pair of values", "why_tests_cant": "All pairs of values of all types.", "anchors": ["syncanysql/calculaters/mysql_funcs/logical_funcs.py"]}
{"id": "C29", "title": "IN is the three-valued disjunction of equalities", "statement": "x IN (list) is TRUE if some element equals x, otherwise NULL if x or some element is NULL, otherwise FALSE; NOT IN is its three-valued negation.", "quantifier": "every value and list", "why_tests_cant": "All lists, all NULL positions.", "anchors": ["syncanysql/calculaters/mysql_funcs/logical_funcs.py: mysql_in"]}
{"id": "C30", "title": "Integer arithmetic obeys the division identity", "statement": "Addition, subtraction, multiplication and '/' of integers and fractions are exact, division or modulo by zero gives NULL, and a MOD b is congruent to a modulo b and smaller than b in magnitude.", "quantifier": "every pair of integers or fractions", "why_tests_cant": "All integers.", "anchors": ["syncanysql/calculaters/mysql_funcs/number_funcs.py: mysql_add, mysql_sub, mysql_mul, mysql_div, mysql_mod"]}
{"id": "C31", "title": "Boolean connectives implement SQL filtering logic", "statement": "The compiled AND, OR, NOT, BETWEEN, CASE, IF, IFNULL, COALESCE expressions have the same truth value as SQL's three-valued logic when used as a filter. [NOT over an expression containing NULL is where the compiled form deviates.]", "quantifier": "every expression tree and every valuation", "why_tests_cant": "All expression trees.", "anchors": ["syncanysql/compiler.py: Compiler.compile_calculate", "syncanysql/calculaters/mysql_funcs/logical_funcs.py"]}
{"id": "C32", "title": "Substring functions", "statement": "LEFT(s,n), n >= 0, is the prefix of min(n, length) characters, RIGHT(s,n), n >= 1, the suffix of that length; SUBSTRING(s,n+1) is what LEFT(s,n) leaves, with a length argument its first characters; LEFT and SUBSTRING, and LEFT and RIGHT, concatenated are s; CHAR_LENGTH counts characters, LENGTH bytes.", "quantifier": "every text and count", "why_tests_cant": "All strings and positions.", "anchors": ["syncanysql/calculaters/mysql_funcs/string_funcs.py"]}
{"id": "C33", "title": "String search functions locate what they report", "statement": "STARTSWITH, ENDSWITH and CONTAINS hold exactly of prefixes, suffixes and parts; FIELD of a value that is not NULL gives the position of the first candidate equal to the value, 0 if none; FIND_IN_SET that of the first equal element of a list of texts joined by commas, 0 if none.", "quantifier": "every string and needle, every list", "why_tests_cant": "All strings.", "anchors": ["syncanysql/calculaters/mysql_funcs/string_funcs.py"]}
{"id": "C34", "title": "SUBSTRING_INDEX", "statement": "SUBSTRING_INDEX(s,d,c) for c > 0 is the part before the c-th delimiter, or s if there are fewer; for c = 0 it is empty.", "quantifier": "every string, delimiter and count", "why_tests_cant": "All strings.", "anchors": ["syncanysql/calculaters/mysql_funcs/string_funcs.py: mysql_substring_index"]}
{"id": "C35", "title": "CONCAT, REPEAT, REVERSE, REPLACE, INSERT, TRIM, STRCMP laws", "statement": "CONCAT is concatenation (NULL for a NULL argument), REPEAT(s,n) has n copies, REVERSE is an involution, REPLACE of a non-empty text replaces every occurrence from the left, TRIM removes exactly the blanks at the ends, STRCMP is a total order consistent with <, INSERT at a position inside the text replaces exactly the requested range.", "quantifier": "every string", "why_tests_cant": "All strings and counts.", "anchors": ["syncanysql/calculaters/mysql_funcs/string_funcs.py"]}
{"id": "C36", "title": "LIKE matches the whole string", "statement": "s LIKE p holds iff the whole of s matches p, where % stands for any character sequence and _ for one character. [Violated: only a prefix must match, _ is literal, newlines block %.]", "quantifier": "every string and every pattern", "why_tests_cant": "All strings and patterns.", "anchors": ["syncanysql/calculaters/mysql_funcs/regexp_funcs.py: mysql_like"]}
{"id": "C37", "title": "JSON_SET then JSON_EXTRACT", "statement": "After JSON_SET of an existing or directly addable path, JSON_EXTRACT of that path gives the value set, and disjoint paths are unchanged.", "quantifier": "every JSON document, every path, every value", "why_tests_cant": "Unbounded nesting.", "anchors": ["syncanysql/calculaters/mysql_funcs/json_funcs.py"]}
{"id": "C38", "title": "JSON_REMOVE removes only the addressed member", "statement": "JSON_REMOVE(doc,path) deletes exactly the addressed member, leaving every other path unchanged. [Violated when a non-final path leg is an array index.]", "quantifier": "every JSON document and path", "why_tests_cant": "Unbounded nesting.", "anchors": ["syncanysql/calculaters/mysql_funcs/json_funcs.py"]}
{"id": "C39", "title": "JSON_CONTAINS, JSON_DEPTH, JSON_LENGTH", "statement": "JSON_CONTAINS(doc, x, path) holds when x is the value the path leads to, and only of a document that is the same up to the order of members and the way numbers are written; JSON_DEPTH is one plus the maximum depth of members, 1 without members; JSON_LENGTH of an array or object is the number of its members, JSON_KEYS their names; JSON_CONTAINS_PATH tells whether all (one) of the paths lead to a value other than null.", "quantifier": "every document and every path of unquoted names and indexes that does not index into a text", "why_tests_cant": "Unbounded nesting.", "anchors": ["syncanysql/calculaters/mysql_funcs/json_funcs.py"]}
{"id": "C40", "title": "Month arithmetic", "statement": "DATE_SUB of n >= 0 months gives the date in the target month with the day lowered to the length of the month; DATE_ADD and DATE_SUB of weeks, days, hours, minutes and seconds move the instant by exactly that much and undo each other; NULL exactly when the year would leave 1 to 9999.", "quantifier": "every date and interval", "why_tests_cant": "All dates and offsets.", "anchors": ["syncanysql/calculaters/mysql_funcs/datetime_funcs.py"]}
{"id": "C41", "title": "Time of day and difference functions", "statement": "TIME_TO_SEC(SEC_TO_TIME(n)) = n within a day; DATEDIFF and TIMESTAMPDIFF are antisymmetric; TIMESTAMPDIFF counts the whole units passed, and for weeks, days, hours, minutes and seconds undoes DATE_ADD and DATE_SUB.", "quantifier": "every pair of instants", "why_tests_cant": "All instants.", "anchors": ["syncanysql/calculaters/mysql_funcs/datetime_funcs.py"]}
{"id": "C42", "title": "WHERE push-down keeps exactly the selected rows", "statement": "A row is returned iff it satisfies the WHERE clause, however the clause is divided between conditions pushed to the data source and the residual filter. [Violated for constant-on-the-left comparisons, whose operator is not mirrored.]", "quantifier": "every WHERE tree and every row", "why_tests_cant": "All expression trees.", "anchors": ["syncanysql/compiler.py: Compiler.compile_where_condition"]}
{"id": "C43", "title": "DELETE never deletes a row the WHERE clause does not select", "statement": "A DELETE either is rejected at compile time or deletes only rows satisfying its WHERE clause (all of them).", "quantifier": "every DELETE and every row", "why_tests_cant": "All expression trees.", "anchors": ["syncanysql/compiler.py: Compiler.compile_delete, compile_where_condition"]}
{"id": "C44", "title": "Join dependencies are loaded before their dependants", "statement": "The order in which the joined tables of a column are chained lists each table its tables lead to once and every table before the tables its ON condition refers to, and is found whenever the references have no cycle; an expression without BETWEEN whose columns are visible compiles to one with the same value.", "quantifier": "every join graph, every enumeration order of its levels", "why_tests_cant": "All graphs.", "anchors": ["syncanysql/compiler.py: Compiler.compile_join_column_tables, compile_join_column"]}
{"id": "C45", "title": "Inner join rewriting", "statement": "Rewriting INNER JOIN into LEFT JOIN plus IS NOT NULL filters returns exactly the inner join rows, and LEFT JOINs of the same query keep their unmatched rows. [Second part violated.]", "quantifier": "every join query and every tables' contents", "why_tests_cant": "All databases.", "anchors": ["syncanysql/compiler.py: Compiler.optimize_rewrite_inner_join"]}
{"id": "C46", "title": "LIMIT and OFFSET", "statement": "LIMIT n OFFSET m, n > 0, returns rows m+1..m+n of the result without LIMIT, in the same order, of every query that has aggregates, ORDER BY, HAVING or a residual WHERE, or else works row by row; OFFSET m alone drops the first m rows of every query.", "quantifier": "every result set, n and m, every query shape", "why_tests_cant": "All sizes.", "anchors": ["syncanysql/compiler.py: Compiler.compile_select"]}
{"id": "C47", "title": "UNION aligns columns by position", "statement": "Each branch of a UNION contributes all of its rows, its i-th column under the i-th column name of the first branch.", "quantifier": "every number of branches, columns and rows", "why_tests_cant": "All sizes.", "anchors": ["syncanysql/compiler.py: Compiler.compile_union"]}
{"id": "C48", "title": "SET values and literals are typed consistently", "statement": "SET @x = integer and the other literal parsers give that integer, SET @x = digits.digits that decimal number, a quoted text among command arguments that text.", "quantifier": "every literal text", "why_tests_cant": "All literals.", "anchors": ["syncanysql/utils.py: parse_value", "syncanysql/taskers/set.py: SetCommandTasker.parse_value"]}
{"id": "C49", "title": "Interactive completeness check", "statement": "The interactive prompt submits the text iff it contains a ';' outside quoted literals (or is an exit or shell command).", "quantifier": "every text", "why_tests_cant": "All texts.", "anchors": ["syncanysql/prompt.py", "syncanysql/parser.py: SqlParser.read_util_complete"]}
{"id": "C50", "title": "Numeric coercion of strings", "statement": "Converting a string to a number uses its longest numeric prefix and never fails on a string starting with a digit; converting the decimal text of an integer gives back the integer.", "quantifier": "every string", "why_tests_cant": "All strings.", "anchors": ["syncanysql/utils.py: parse_number, ensure_int, ensure_number"]}
{"id": "C51", "title": "FLOOR, CEIL, ROUND, ABS, SIGN", "statement": "FLOOR(x) is the greatest integer not above x, CEIL(x) the least not below, ROUND(x,d) a multiple of 10^-d within half a unit; ABS and SIGN are magnitude and sign.", "quantifier": "every number and number of digits", "why_tests_cant": "All numbers.", "anchors": ["syncanysql/calculaters/mysql_funcs/number_funcs.py: mysql_floor, mysql_ceil, mysql_round, mysql_abs, mysql_sign"]}
{"id": "C52", "title": "Calendar fields", "statement": "WEEKDAY advances by one (cyclically) every day with Monday = 0, DAYOFYEAR counts the days from January 1st, WEEK(x,0) counts the Sundays of the year up to x.", "quantifier": "every date", "why_tests_cant": "All dates.", "anchors": ["syncanysql/calculaters/mysql_funcs/datetime_funcs.py: mysql_weekday, mysql_dayofweek, mysql_dayofyear, mysql_week"]}
{"id": "C53", "title": "ON conditions are honoured", "statement": "A row of a joined table is joined to a row of the query exactly when every conjunct of its ON condition is true, and every table ON refers to is loaded before it. [Violated: a conjunct that compares a column of another table with a constant is applied to the joined table's column of that name; tables named only to the right of a non-column are not loaded.]", "quantifier": "every ON condition, every table contents", "why_tests_cant": "All conditions and databases.", "anchors": ["syncanysql/compiler.py: Compiler.parse_on_condition, parse_joins"]}
{"id": "C54", "title": "Comma-separated FROM", "statement": "SELECT ... FROM a, b, ... WHERE c returns exactly the combinations of rows that satisfy c. [Violated when a table is compared with nothing and is empty.]", "quantifier": "every number of tables, every WHERE, every contents", "why_tests_cant": "All databases.", "anchors": ["syncanysql/compiler.py: Compiler.optimize_rewrite_multi_select, optimize_rewrite_parse_condition"]}
{"id": "C55", "title": "ORDER BY sorts the result by its keys, stably", "statement": "A SELECT with ORDER BY returns exactly the rows the same query without ORDER BY returns, rearranged so that they ascend (descend for DESC) in the first key, ties broken by the following keys, and rows equal in all keys keep the order they had; a key that is a result column means that result column, a qualified column means the column of that table.", "quantifier": "all column lists, lists of ORDER BY items with directions, tables and total orders on the values", "why_tests_cant": "the compiler decides per item whether to sort when the rows are read or after they are computed; whether the two sorts together give the order asked for depends on every combination of columns and aliases", "anchors": ["syncanysql/compiler.py: compile_order"]}
{"id": "C56", "title": "Life of an engine: init files, memory tables, contexts", "statement": "Reading or emptying a memory table through the engine or a context returns what was pushed into it successfully since it was last emptied, in order; pushes through the engine succeed as long as it is not closed and its init files run; a closed engine stays closed; init files run at most once, before the first use.", "quantifier": "all sequences of API calls", "why_tests_cant": "all histories of calls", "anchors": ["syncanysql/__init__.py: ScriptEngine, ExecuterContext, push_memory_datas"]}
{"id": "C57", "title": "SELECT without grouping returns SQL's result", "statement": "SELECT columns FROM t WHERE w HAVING h ORDER BY o LIMIT n OFFSET m returns: of the rows of t that satisfy w and (in terms of the result columns) h, each turned into a row of the listed expressions, arranged by o, the n rows after the first m. [Violated by what violates C31, C42, C46 and C55.]", "quantifier": "all select lists, conditions, orders, limits and tables", "why_tests_cant": "the clauses are compiled one by one and distributed over four stages (source query, load order and limit, predicate, intercept, pipelines); that together they compute the query is a statement about every combination of clauses and every table", "anchors": ["syncanysql/compiler.py: compile_select", "syncanysql/taskers/query.py"]}
{"id": "C58", "title": "SELECT with aggregates or GROUP BY returns SQL's result", "statement": "SELECT with aggregates or GROUP BY returns one row for each group of the rows that satisfy WHERE (without GROUP BY: for all of them together, even if there are none) that satisfies HAVING, holding the aggregates over the rows of the group, arranged by ORDER BY and cut by LIMIT/OFFSET; how the rows are divided into batches does not matter; a name in GROUP BY that is an alias of the select list means that expression. [Violated: an alias that stands after an aggregate is taken for a column of the table; over no rows there is no result row; LIMIT without aggregates limits the rows that are grouped.]", "quantifier": "all select lists, groupings, conditions, orders, limits, tables and divisions into batches", "why_tests_cant": "all tables, all divisions into batches and all combinations of clauses", "anchors": ["syncanysql/compiler.py: compile_select, compile_aggregate_column, compile_aggregate_key, compile_group_column", "syncanysql/taskers/query.py: compile_reduce_config, run_reduce"]}
{"id": "C59", "title": "SELECT DISTINCT returns every row once", "statement": "SELECT DISTINCT returns each row of the same SELECT without DISTINCT exactly once, arranged by ORDER BY and cut by LIMIT/OFFSET. [Violated: with GROUP BY or aggregates DISTINCT is ignored; LIMIT limits the rows that are compared.]", "quantifier": "all select lists, conditions, orders and tables", "why_tests_cant": "all tables and all combinations of clauses", "anchors": ["syncanysql/compiler.py: compile_select, compile_distinct_column"]}
{"id": "C60", "title": "Memory of batched aggregation is bounded by the groups", "statement": "While a grouped query runs in batches of size n > 0, the intermediate table never holds more rows after a batch than one per group seen so far plus n-1 (or plus the groups of one batch, if that is more); with batch size 0 nothing is combined before the end; at the end there is one row per group.", "quantifier": "all batch sizes, divisions of all inputs into batches", "why_tests_cant": "holds for every sequence of batches, however long", "anchors": ["syncanysql/taskers/query.py: ReduceHooker.outputed, run_reduce"]}
{"id": "C61", "title": "Command line", "statement": "An SQL file (.sql, .sqlx, .prql in any case) given as first argument is run, whatever is on standard input; another extension is refused at a terminal; without argument at a terminal the prompt starts; with another argument the text piped in is run, without the quotes it may be enclosed in.", "quantifier": "all argument lists, standard inputs, terminal or not", "why_tests_cant": "all argument lists and inputs", "anchors": ["syncanysql/main.py: main"]}
{"id": "C62", "title": "Task numbers are consecutive", "statement": "The tasks started by a root executor and all executors created below it (EXECUTE, virtual views, sub-executors) are numbered 1, 2, 3, ... in the order they ask, each number once, independently of other roots.", "quantifier": "all trees of executors, all interleavings of requests", "why_tests_cant": "all interleavings", "anchors": ["syncanysql/executor.py: Executor.distribute_tasker_index"]}
{"id": "C63", "title": "RIGHT JOIN returns SQL's result", "statement": "A query with RIGHT JOIN returns the rows of SQL: every row of the right table with its partners, or with NULLs, filtered by WHERE. [Violated by conditions on the right table in WHERE (applied to the left table), WHERE ... IS NULL, constants in ON, INNER JOIN beside RIGHT JOIN, a WHERE that is an OR; the compiler does not terminate when ON has the right table on both sides.]", "quantifier": "all ON and WHERE conditions, all further LEFT JOINs, all tables", "why_tests_cant": "the query is rewritten to LEFT JOINs; that the rewritten query has the same rows is a statement about all databases and conditions", "anchors": ["syncanysql/compiler.py: Compiler.optimize_rewrite_right_join, optimize_rewrite_parse_condition"]}
{"id": "C64", "title": "JSON_OBJECTAGG and JSON_ARRAYAGG", "statement": "JSON_OBJECTAGG(k, v) of a group read in one batch is the object with one member per key, in the order the keys first occur, with the value of the last row that has the key; JSON_ARRAYAGG(x) of a group without NULLs is the list of its values in row order, however the group is divided in two parts; both are NULL for no rows.", "quantifier": "all groups of rows, all keys and values", "why_tests_cant": "holds for every sequence of keys with repetitions", "anchors": ["syncanysql/calculaters/aggregate_calculater.py: AggregateJsonObjectaggCalculater", "syncanysql/calculaters/aggregate_calculater.py: AggregateJsonArrayaggCalculater"]}
{"id": "C65", "title": "A SELECT with window functions returns SQL's result", "statement": "Running `SELECT \u2026 f(\u2026) OVER (PARTITION BY \u2026 ORDER BY \u2026) \u2026 FROM t WHERE \u2026 HAVING \u2026 ORDER BY \u2026 LIMIT \u2026` (windows inline or named in a WINDOW clause; columns that are expressions, window functions, or expressions of window functions) returns the rows that satisfy WHERE, each with the value of the window function on the ordered partition of the row, aggregates being taken over SQL's default frame; then HAVING, ORDER BY, OFFSET and LIMIT apply to these result rows.", "quantifier": "every table content, every select list of expressions, window functions and expressions of them in the scope, every window clause, every order of values that is total and transitive, every WHERE, HAVING, ORDER BY, LIMIT and OFFSET in scope", "why_tests_cant": "The value in each row depends on all rows of its partition and on the interplay of stable sorting, hidden columns, two evaluation stages and clause order; tests only fix a few tables.", "anchors": ["syncanysql/compiler.py: compile_window_column, compile_window_key, compile_window_order, compile_window_value, compile_window_calculate, compile_select, compile_order", "syncanysql/taskers/query.py: QueryTasker.compile_reduce_config", "syncanysql/calculaters/window_calculater.py"]}
{"id": "C66", "title": "Subqueries complete before they are used; nothing is left behind", "statement": "Executing a statement with subqueries and unions runs every subquery to its end, once, before the query using it does anything; the first failure stops everything; every read of an intermediate result sees all the rows written to it; when the statement ends, with success or failure, its temporary collections are empty and user tables hold exactly what was written to them.", "quantifier": "every query shape, program of the tasks and point of failure, without @streaming", "why_tests_cant": "needs all nestings and all crash points", "anchors": ["syncanysql/taskers/query.py:QueryTasker.run", "syncanysql/taskers/query.py:QueryTasker.run_yield", "syncanysql/taskers/query.py:QueryTasker.run_tasker", "syncanysql/taskers/query.py:QueryTasker.check_free_temporary_memory_collection", "syncanysql/compiler.py:Compiler.compile_with", "syncanysql/executor.py:Executor.clear_temporary_memory_collection"]}
{"id": "C67", "title": "Set operations combine SELECTs as SQL does", "statement": "A statement of SELECTs joined by UNION ALL, without parentheses, whose SELECTs have the same column names in the same order, has these columns and returns the rows of all SELECTs, each as often as it occurs.", "quantifier": "every number of SELECTs and every content", "why_tests_cant": "needs all trees of set operations and all tables; example statements use one operation on a few rows", "anchors": ["syncanysql/compiler.py:Compiler.compile_union", "syncanysql/compiler.py:Compiler.compile_query"]}
{"id": "C68", "title": "Constants have the value that is written", "statement": "A text literal without characters of codes 128 to 256, written with escapes for backslash and control characters, stands for that text; number, truth value and hexadecimal constants, NULL, negative numbers and variables stand for the value SQL gives them.", "quantifier": "every text over all of Unicode, every number, every variable environment", "why_tests_cant": "the texts are infinitely many and the code treats ranges of characters differently", "anchors": ["syncanysql/compiler.py:Compiler.parse_const", "syncanysql/compiler.py:Compiler.is_const", "syncanysql/compiler.py:Compiler.compile_const"]}
{"id": "C69", "title": "INSERT VALUES stores the rows that are written", "statement": "INSERT INTO t (columns) VALUES (\u2026), (\u2026) of constants that the types of their columns leave unchanged stores one record per row, in order, with the i-th value under the i-th column and NULL for missing values; a row with too many values is refused and nothing is stored; the table's options select the way of writing.", "quantifier": "every column list, every number of rows and values, every type declared or found", "why_tests_cant": "the type of a column depends on all the rows above; needs all lists of rows", "anchors": ["syncanysql/compiler.py:Compiler.compile_insert_into", "syncanysql/compiler.py:Compiler.parse_const"]}
{"id": "C70", "title": "Table names lead to the tables they name", "statement": "In FROM, JOIN and INSERT INTO a quoted name ending in .csv, .json, .txt, .xls or .xlsx is the file of that name in that directory (the current one if none is given), read or written in the way of its extension, or for a text file of the format among the options in angle brackets; `_` is the console, `.csv`, `.json` and `.txt` standard input or output; a qualified name is the table of that database; anything else is a table in memory. Options in angle brackets do not change the name. This holds for each table of a query whatever other tables it uses.", "quantifier": "every list of table references of a query, every path, every list of options", "why_tests_cant": "the tables of a query share one list of databases: needs all combinations of paths, extensions and options", "anchors": ["syncanysql/compiler.py:Compiler.parse_table", "syncanysql/compiler.py:Compiler.compile_query", "syncanysql/compiler.py:Compiler.compile_insert_into"]}
{"id": "C71", "title": "Correlated subqueries are evaluated for each outer row", "statement": "A subquery whose WHERE mentions columns of the outer query gives, for each outer row, the values SQL's evaluation for that row alone gives: EXISTS says whether a row matches, IN sees the matching values, a scalar subquery is the value of the matching row (NULL if there is none), an aggregate is the aggregate of the matching rows. It does not matter which other outer rows are evaluated in the same batch, nor how the equalities with the outer query, other conditions on both queries and conditions of its own are mixed.", "quantifier": "every WHERE built with AND from equalities and other conditions, every inner and outer table, every batch of outer rows", "why_tests_cant": "the subquery is run once for many outer rows and its rows are distributed afterwards: needs all conditions, tables and batches", "anchors": ["syncanysql/compiler.py:Compiler.parse_subquery", "syncanysql/compiler.py:Compiler.compile_query_condition", "syncanysql/calculaters/query_tasker_calculater.py:ExecuteQueryTaskerCalculater"]}
{"id": "C72", "title": "Regular-expression functions find the right occurrence", "statement": "REGEXP_INSTR, REGEXP_SUBSTR and REGEXP_REPLACE with a starting position and an occurrence work on the n-th of the leftmost, non-overlapping matches from that position on: its place in the whole text (or the place behind it), its text, or the text with just this match replaced; without an occurrence REGEXP_REPLACE replaces all of them and keeps everything else; REGEXP and REGEXP_LIKE tell whether the text contains a match. NULL gives NULL, an invalid pattern does not stop the query, and the match type switches case sensitivity as its last letter c or i says.", "quantifier": "every subject text, every pattern (any matching engine), every position, occurrence, return option and match type", "why_tests_cant": "the search goes on in shortened copies of the text: needs all texts, patterns and numbers of occurrences", "anchors": ["syncanysql/calculaters/mysql_funcs/regexp_funcs.py:mysql_regexp_instr", "syncanysql/calculaters/mysql_funcs/regexp_funcs.py:mysql_regexp_substr", "syncanysql/calculaters/mysql_funcs/regexp_funcs.py:mysql_regexp_replace", "syncanysql/calculaters/mysql_funcs/regexp_funcs.py:parse_flags"]}
{"id": "C73", "title": "GREATEST and LEAST pick an extreme argument", "statement": "GREATEST (LEAST) of two or more numbers, or of two or more texts, is one of its arguments and none of the others is greater (less); numbers and texts together are compared as numbers; NULL among them gives NULL; the order of the arguments does not change the value.", "quantifier": "every list of arguments: numbers, booleans, texts, NULL, in every order", "why_tests_cant": "needs all argument lists", "anchors": ["syncanysql/calculaters/mysql_funcs/number_funcs.py:mysql_greatest", "syncanysql/calculaters/mysql_funcs/number_funcs.py:mysql_least"]}
{"id": "C74", "title": "Encodings are undone by their inverses", "statement": "FROM_BASE64 undoes TO_BASE64 for every text, whatever foreign characters are put in between, and is NULL when padding or length do not fit; HEX of a text that is not empty has two digits per byte and UNHEX undoes it, taking digits of either case and nothing else; CHAR of codes is the text of these characters and ORD and ASCII of one character its code; NULL gives NULL.", "quantifier": "every text, number, list of codes and address", "why_tests_cant": "round trips over all texts", "anchors": ["syncanysql/calculaters/mysql_funcs/string_funcs.py:mysql_hex", "syncanysql/calculaters/mysql_funcs/string_funcs.py:mysql_unhex", "syncanysql/calculaters/mysql_funcs/string_funcs.py:mysql_to_base64", "syncanysql/calculaters/mysql_funcs/string_funcs.py:mysql_from_base64", "syncanysql/calculaters/mysql_funcs/string_funcs.py:mysql_ascii"]}
{"id": "C75", "title": "Bit operators", "statement": "Of non-negative integers &, | and ^ combine the bits of their operands one by one; << multiplies by and >> divides (rounding down) by powers of two for every integer and every number of places, a negative number of places gives NULL; operands of other types count as the integers they convert to.", "quantifier": "every operand: integers of any size, booleans, fractions, texts, NULL; every number of places", "why_tests_cant": "needs all integers and shift counts", "anchors": ["syncanysql/calculaters/mysql_funcs/number_funcs.py:mysql_bitwiseand", "syncanysql/calculaters/mysql_funcs/number_funcs.py:mysql_bitwisenot", "syncanysql/calculaters/mysql_funcs/number_funcs.py:mysql_bitwiseleftshift", "syncanysql/calculaters/mysql_funcs/number_funcs.py:mysql_bitwiserightshift"]}
{"id": "C76", "title": "WITH and WITH RECURSIVE", "statement": "A named query of a WITH clause stands for its rows in the named queries after it and in the statement itself, hiding a table of the same name, and only during the statement. A named query whose UNION ALL contains SELECTs from the query itself holds the rows of the other SELECTs and, round by round, the rows these SELECTs make from the rows of the round before, until a round has none; UNION keeps one of each row and so ends when no new row appears. A column list names the columns.", "quantifier": "every list of named queries, every content of the memory database, every recursion, terminating or not, every number of runs", "why_tests_cant": "recursions have unbounded depth and may not terminate; the content left behind depends on the history", "anchors": ["syncanysql/compiler.py:Compiler.compile_with", "syncanysql/compiler.py:Compiler.compile_union", "syncanysql/taskers/query.py:QueryTasker.compile_tasker"]}
{"id": "C77", "title": "Expressions around aggregates", "statement": "In a query with aggregates, a column computed from aggregates and columns of the GROUP BY, such as a + SUM(b), has for each group the value of the expression with each aggregate over the rows of the group and each column as in the rows of the group, whatever else is selected.", "quantifier": "every expression, select list and group", "why_tests_cant": "quantifies over expressions, select lists and groups", "anchors": ["syncanysql/compiler.py:Compiler.compile_aggregate_column", "syncanysql/taskers/query.py:QueryTasker.compile_reduce_config", "syncanysql/taskers/query.py:QueryTasker.run_reduce"]}
{"id": "C78", "title": "Columns of a SELECT", "statement": "The result of a SELECT has, in order, one column for each item of the select list: * stands for the columns of all tables in FROM order, t.* for those of t, a reference without table for the column of the one table that has it, t.c for column c of the table named or aliased t; a column is named by its alias, or by its name; each has the value of that column in the current rows.", "quantifier": "every select list, every combination of tables, subqueries, aliases and joins", "why_tests_cant": "select lists and schemas are unbounded, and names interact", "anchors": ["syncanysql/compiler.py:Compiler.compile_select", "syncanysql/compiler.py:Compiler.compile_select_star_column", "syncanysql/compiler.py:Compiler.compile_select_column", "syncanysql/compiler.py:Compiler.parse_table"]}
{"id": "C79", "title": "History of the prompt", "statement": "Every start of the interactive prompt shows the texts entered before, unchanged and newest first, except those that begin with exit; a start keeps the 50 newest. A crash while an entry is written costs at most the text being written, and never a later one.", "quantifier": "every sequence of texts entered and starts, every crash point of a write, every content of the file", "why_tests_cant": "sequences of starts, texts (with line feeds, #, +) and crash points are unbounded", "anchors": ["syncanysql/prompt.py:CliFileHistory.load_history_strings", "syncanysql/prompt.py:CliFileHistory.store_string"]}
{"id": "C80", "title": "DATE_FORMAT", "statement": "DATE_FORMAT(x, f), for years from 1000 and formats of the specifiers %a %b %d %f %H %I %j %m %p %r %S %T %U %w %Y %y %% and other characters, replaces every specifier of f by what MySQL's table says and keeps the other characters.", "quantifier": "every date and every format", "why_tests_cant": "all dates and formats of any length", "anchors": ["syncanysql/calculaters/mysql_funcs/datetime_funcs.py: mysql_date_format, mysql_time_format"]}
{"id": "C81", "title": "Dates, times and instants", "statement": "DATE and TIME are the halves of a moment and determine it; YEAR, MONTH and DAYOFMONTH are the same for a moment and its date; FROM_UNIXTIME(t) is the instant t seconds after 1970 in any time zone.", "quantifier": "every date, time, instant and time zone", "why_tests_cant": "all instants and zones", "anchors": ["syncanysql/calculaters/mysql_funcs/datetime_funcs.py: mysql_date, mysql_time, mysql_datetime, mysql_unix_timestamp, mysql_from_unixtime"]}
{"id": "C82", "title": "SET addresses what it names", "statement": "SET @x = literal gives the variable @x (whose name does not begin with config and is no section) this value in the session and changes nothing else; SET GLOBAL @x does so for all sessions that have no value of their own; SET @section.name and SET @config.name set this setting of the session, and nothing else.", "quantifier": "every name, value text, arrangement of blanks and nesting of sessions", "why_tests_cant": "all texts and environments", "anchors": ["syncanysql/taskers/set.py: SetCommandTasker", "syncanysql/compiler.py: compile_expression"]}
{"id": "C83", "title": "EXECUTE runs a file in place, in a session of its own", "statement": "EXECUTE f runs the statements of the SQL file f, each once and in order, after the statements before it and before those after it; the file begins with the caller's variables and leaves the caller's variables and settings as they were (SET GLOBAL excepted); a file that cannot be read or compiled runs nothing; after a failure nothing else runs; a file that executes itself is refused.", "quantifier": "every script, file contents, nesting of files and outcome of the statements", "why_tests_cant": "files nest without bound and statements may fail anywhere", "anchors": ["syncanysql/taskers/execute.py: ExecuteTasker", "syncanysql/executor.py: Executor.run, Executor.execute"]}
{"id": "C84", "title": "EXPLAIN does not execute", "statement": "EXPLAIN changes no data, no variable and no setting. [Violated for SELECT and INSERT, which are executed; other statements are refused.]", "quantifier": "every statement and state", "why_tests_cant": "all statements", "anchors": ["syncanysql/taskers/explain.py: ExplainTasker"]}
{"id": "C85", "title": "USE and SHOW", "statement": "USE 'm' as x makes the importable module m known as x, USE 'm' under the last part of its name, in this session and nowhere else, and changes nothing else; SHOW changes nothing.", "quantifier": "every name and session", "why_tests_cant": "all names and sessions", "anchors": ["syncanysql/taskers/use.py: UseCommandTasker", "syncanysql/taskers/show.py: ShowCommandTasker"]}
{"id": "C86", "title": "The rest of a failed script is dropped", "statement": "After a statement of a script failed, the statements after it do not run later unless resubmitted. [Violated through the API: the queue keeps them and the next execution runs them first; true of the interactive prompt, C11.]", "quantifier": "every script, point of failure and later script", "why_tests_cant": "Needs all positions and all later histories.", "anchors": ["syncanysql/executor.py: Executor.execute", "syncanysql/prompt.py: CliPrompt.run"]}
{"id": "C87", "title": "Aggregates of NULLs only", "statement": "SUM and GROUP_CONCAT over a group of NULLs only are NULL, BIT_AND, BIT_OR and BIT_XOR the neutral element. [Violated: 0, the empty text, NULL.]", "quantifier": "every group of NULLs only", "why_tests_cant": "All lists of values with all positions of NULLs.", "anchors": ["syncanysql/calculaters/aggregate_calculater.py"]}
{"id": "C88", "title": "NTILE puts the larger buckets first", "statement": "The larger buckets of NTILE come before the smaller ones. [Violated unless the remainder of rows by buckets is 0, 1 or one less than the buckets.]", "quantifier": "every number of rows and buckets", "why_tests_cant": "All sizes.", "anchors": ["syncanysql/calculaters/window_calculater.py: WindowAggregateNtileCalculater"]}
{"id": "C89", "title": "A number and a numeric text compare the same in either order", "statement": "Comparing a number and a numeric text gives consistent answers in either order of the operands. [Violated: the first operand decides the type of the comparison.]", "quantifier": "every number and numeric text", "why_tests_cant": "All pairs of values of all types.", "anchors": ["syncanysql/calculaters/mysql_funcs/logical_funcs.py"]}
{"id": "C90", "title": "MOD has the sign of the dividend", "statement": "a MOD b has the sign of a. [Violated for operands of different signs unless b divides a.]", "quantifier": "every pair of integers", "why_tests_cant": "All integers.", "anchors": ["syncanysql/calculaters/mysql_funcs/number_funcs.py: mysql_add, mysql_sub, mysql_mul, mysql_div, mysql_mod"]}
{"id": "C91", "title": "ELT is inverse to FIELD; FIND_IN_SET of anything", "statement": "ELT(FIELD(s, a\u2026), a\u2026) is s; ELT returns its n-th candidate, NULL outside; FIELD of NULL is 0; FIND_IN_SET looks for the text of a number, and finds nothing in the empty text. [Violated: FIELD of NULL is NULL; ELT never returns its last candidate and ELT(0, \u2026) does; numbers are never found and the empty text is found.]", "quantifier": "every list of candidates", "why_tests_cant": "All strings.", "anchors": ["syncanysql/calculaters/mysql_funcs/string_funcs.py"]}
{"id": "C92", "title": "SET of quoted texts and negative decimals", "statement": "SET @x = 'text' assigns exactly the text; SET @x = -digits.digits assigns that number. [Violated: blanks at the ends of the text are lost; negative decimals are no literals.]", "quantifier": "every text and decimal", "why_tests_cant": "All literals.", "anchors": ["syncanysql/utils.py: parse_value", "syncanysql/taskers/set.py: SetCommandTasker.parse_value"]}
{"id": "C93", "title": "ROUND(x) is the nearest integer", "statement": "ROUND(x) is the nearest integer, ties away from zero. [Violated: called from SQL with one argument ROUND is NULL (the default of the second argument, 2, is not used); ties go to the even neighbour.]", "quantifier": "every number", "why_tests_cant": "All numbers.", "anchors": ["syncanysql/calculaters/mysql_funcs/number_funcs.py: mysql_floor, mysql_ceil, mysql_round, mysql_abs, mysql_sign"]}
{"id": "C94", "title": "DAYOFWEEK, WEEK(x,1), YEARWEEK, MONTHNAME, DAYNAME", "statement": "DAYOFWEEK counts from Sunday = 1, WEEK(x,1) and YEARWEEK number the weeks as MySQL does, MONTHNAME and DAYNAME are the full names. [Violated except for DAYNAME: Monday = 1, week 0, years cut in two, three letters.]", "quantifier": "every date", "why_tests_cant": "All dates.", "anchors": ["syncanysql/calculaters/mysql_funcs/datetime_funcs.py: mysql_weekday, mysql_dayofweek, mysql_dayofyear, mysql_week"]}
{"id": "C95", "title": "Text piped in without an argument", "statement": "Text on standard input is run when the program is started without an argument. [Violated: IndexError.]", "quantifier": "every text", "why_tests_cant": "all argument lists and inputs", "anchors": ["syncanysql/main.py: main"]}
{"id": "C96", "title": "A crash while the history is trimmed", "statement": "A crash while a start trims the history file loses no text of the 50 newest. [Violated: the file is rewritten in place, from the oldest on.]", "quantifier": "every file and crash point", "why_tests_cant": "sequences of starts, texts (with line feeds, #, +) and crash points are unbounded", "anchors": ["syncanysql/prompt.py:CliFileHistory.load_history_strings", "syncanysql/prompt.py:CliFileHistory.store_string"]}
{"id": "C97", "title": "UNIX_TIMESTAMP undoes FROM_UNIXTIME", "statement": "UNIX_TIMESTAMP(FROM_UNIXTIME(t)) = t. [Violated unless the machine's standard time is UTC.]", "quantifier": "every instant, time zone and machine clock", "why_tests_cant": "all instants and zones", "anchors": ["syncanysql/calculaters/mysql_funcs/datetime_funcs.py: mysql_date, mysql_time, mysql_datetime, mysql_unix_timestamp, mysql_from_unixtime"]}
{"id": "C98", "title": "EXECUTE refuses what is no SQL or JSON file", "statement": "EXECUTE of a name that is no SQL or JSON file is refused. [Violated: it is run as a shell command.]", "quantifier": "every name", "why_tests_cant": "files nest without bound and statements may fail anywhere", "anchors": ["syncanysql/taskers/execute.py: ExecuteTasker", "syncanysql/executor.py: Executor.run, Executor.execute"]}
{"id": "C99", "title": "Intermediate reductions release what they read", "statement": "A collection rewritten by an intermediate reduction is deleted when the final reduction has read it. [Violated: the intermediate reduction never releases it; it lives until the statement ends.]", "quantifier": "every collection", "why_tests_cant": "All interleavings.", "anchors": ["syncanysql/taskers/query.py: QueryTaskerTemporaryMemoryManager"]}
{"id": "C100", "title": "Contexts, terminal() and failing init files", "statement": "Pushes through a context and the module function succeed; the current context is the innermost one entered and not left; terminal() interrupts the running execution; an engine whose init file fails does not work without it. [Violated in every clause.]", "quantifier": "every history of calls", "why_tests_cant": "all histories of calls", "anchors": ["syncanysql/__init__.py: ScriptEngine, ExecuterContext, push_memory_datas"]}
{"id": "C101", "title": "JSON containment of parts, length of scalars, null members", "statement": "JSON_CONTAINS holds of the elements and parts of a document; JSON_LENGTH of a scalar is 1; JSON_CONTAINS_PATH finds members that are null. [Violated in every clause.]", "quantifier": "every document", "why_tests_cant": "Unbounded nesting.", "anchors": ["syncanysql/calculaters/mysql_funcs/json_funcs.py"]}
{"id": "C102", "title": "DATEDIFF, months, long times", "statement": "DATEDIFF(a, b) is the number of days from the date b to the date a, whatever the time of day; TIMESTAMPDIFF in months counts calendar months; SEC_TO_TIME shows more than 24 hours. [Violated in every clause.]", "quantifier": "every date", "why_tests_cant": "All instants.", "anchors": ["syncanysql/calculaters/mysql_funcs/datetime_funcs.py"]}
{"id": "C103", "title": "USE of a path; AS", "statement": "USE of the path of a source makes it known; AS may be written in capitals. [Violated: everything is imported first, which fails for paths; AS is not understood.]", "quantifier": "every path", "why_tests_cant": "all names and sessions", "anchors": ["syncanysql/taskers/use.py: UseCommandTasker", "syncanysql/taskers/show.py: ShowCommandTasker"]}
{"id": "C104", "title": "Zero, negative and NULL counts", "statement": "RIGHT(s,0), LEFT and RIGHT of a negative count and SUBSTRING(s,0) are empty, SUBSTRING(s,-n) is the last n characters, a NULL count gives NULL. [Violated in every clause.]", "quantifier": "every text and count", "why_tests_cant": "All strings and positions.", "anchors": ["syncanysql/calculaters/mysql_funcs/string_funcs.py"]}
{"id": "C105", "title": "CONCAT_WS with NULL, INSERT outside the text, REPLACE of the empty text", "statement": "CONCAT_WS skips NULL arguments, INSERT at a position outside the text changes nothing, nor does REPLACE of the empty text. [Violated in every clause.]", "quantifier": "every text", "why_tests_cant": "All strings and counts.", "anchors": ["syncanysql/calculaters/mysql_funcs/string_funcs.py"]}
{"id": "C106", "title": "SUBSTRING_INDEX from the right", "statement": "SUBSTRING_INDEX(s,d,-n) is the part after the n-th delimiter from the right. [Violated: the n first pieces are dropped instead of the n last kept.]", "quantifier": "every text, delimiter and count", "why_tests_cant": "All strings.", "anchors": ["syncanysql/calculaters/mysql_funcs/string_funcs.py: mysql_substring_index"]}
{"id": "C107", "title": "Bit operators on 64 bits", "statement": "~ inverts all 64 bits, << drops the bits shifted out of 64, fractions are rounded. [Violated: numbers have no width and fractions are cut off.]", "quantifier": "every integer", "why_tests_cant": "needs all integers and shift counts", "anchors": ["syncanysql/calculaters/mysql_funcs/number_funcs.py:mysql_bitwiseand", "syncanysql/calculaters/mysql_funcs/number_funcs.py:mysql_bitwisenot", "syncanysql/calculaters/mysql_funcs/number_funcs.py:mysql_bitwiseleftshift", "syncanysql/calculaters/mysql_funcs/number_funcs.py:mysql_bitwiserightshift"]}
{"id": "C108", "title": "NULLs in JSON aggregates", "statement": "JSON_OBJECTAGG refuses NULL keys, JSON_ARRAYAGG keeps NULL elements. [Violated: the key None; NULLs are left out.]", "quantifier": "every group", "why_tests_cant": "holds for every sequence of keys with repetitions", "anchors": ["syncanysql/calculaters/aggregate_calculater.py: AggregateJsonObjectaggCalculater", "syncanysql/calculaters/aggregate_calculater.py: AggregateJsonArrayaggCalculater"]}
{"id": "C109", "title": "UNION, EXCEPT, INTERSECT and parentheses", "statement": "UNION returns every row once, EXCEPT the difference, INTERSECT the intersection; SELECTs may be put in parentheses. [Violated: the operation is not looked at, parentheses are refused.]", "quantifier": "every combination of SELECTs", "why_tests_cant": "needs all trees of set operations and all tables; example statements use one operation on a few rows", "anchors": ["syncanysql/compiler.py:Compiler.compile_union", "syncanysql/compiler.py:Compiler.compile_query"]}
{"id": "C110", "title": "Accented letters, signs and bit strings", "statement": "Text literals with any characters stand for themselves; a minus sign negates variables, hexadecimal constants and texts; bit strings stand for their number. [Violated in every clause.]", "quantifier": "every literal", "why_tests_cant": "the texts are infinitely many and the code treats ranges of characters differently", "anchors": ["syncanysql/compiler.py:Compiler.parse_const", "syncanysql/compiler.py:Compiler.is_const", "syncanysql/compiler.py:Compiler.compile_const"]}
{"id": "C111", "title": "DATE_ADD of months and years", "statement": "DATE_ADD of months gives the date in the target month with the day clamped, DATE_ADD of years the same date of that year (February 28th instead of a missing 29th); negative numbers subtract; MICROSECOND counts microseconds; 'a:b' is hours and minutes. [Violated: December, February 29th, negative months, MICROSECOND, a:b.]", "quantifier": "every date and number", "why_tests_cant": "All dates and offsets.", "anchors": ["syncanysql/calculaters/mysql_funcs/datetime_funcs.py"]}
{"id": "C112", "title": "AVG and JSON_OBJECTAGG in parts", "statement": "AVG and JSON_OBJECTAGG do not depend on how the rows are divided in parts or batches. [Violated: NULLs in AVG; JSON_OBJECTAGG loses everything.]", "quantifier": "every group and division", "why_tests_cant": "All splits of all lists.", "anchors": ["syncanysql/calculaters/aggregate_calculater.py: reduce methods"]}
{"id": "C113", "title": "Aggregates over mixed values and row order", "statement": "SUM over texts that are no numbers, and MAX and MIN over numbers and texts together, do not depend on row order or on the division in parts. [Violated.]", "quantifier": "every group", "why_tests_cant": "All permutations.", "anchors": ["syncanysql/calculaters/aggregate_calculater.py"]}
{"id": "C114", "title": "LIMIT 0; LIMIT with DISTINCT or GROUP BY", "statement": "LIMIT 0 returns nothing; LIMIT n of SELECT DISTINCT, or of GROUP BY without aggregates, returns the first n rows of the result. [Violated: everything; the input is cut.]", "quantifier": "every query", "why_tests_cant": "All sizes.", "anchors": ["syncanysql/compiler.py: Compiler.compile_select"]}
{"id": "C115", "title": "WITH leaves nothing behind", "statement": "The rows of a named query of WITH are gone when the statement ends. [Violated: they stay and are read again by the next statement.]", "quantifier": "every statement", "why_tests_cant": "needs all nestings and all crash points", "anchors": ["syncanysql/taskers/query.py:QueryTasker.run", "syncanysql/taskers/query.py:QueryTasker.run_yield", "syncanysql/taskers/query.py:QueryTasker.run_tasker", "syncanysql/taskers/query.py:QueryTasker.check_free_temporary_memory_collection", "syncanysql/compiler.py:Compiler.compile_with", "syncanysql/executor.py:Executor.clear_temporary_memory_collection"]}
{"id": "C116", "title": "Encodings of numbers, empty and longer texts, addresses", "statement": "HEX, BIN and OCT of a number are its digits and UNHEX undoes HEX also of numbers and the empty text; ORD and ASCII of a longer text give the code of the first character; CHAR skips NULL; CRC32 of a text is its checksum; INET_NTOA undoes INET_ATON. [Violated: prefixes, NULLs, sums of codes; OCT of natural numbers is right.]", "quantifier": "every text and number", "why_tests_cant": "round trips over all texts", "anchors": ["syncanysql/calculaters/mysql_funcs/string_funcs.py:mysql_hex", "syncanysql/calculaters/mysql_funcs/string_funcs.py:mysql_unhex", "syncanysql/calculaters/mysql_funcs/string_funcs.py:mysql_to_base64", "syncanysql/calculaters/mysql_funcs/string_funcs.py:mysql_from_base64", "syncanysql/calculaters/mysql_funcs/string_funcs.py:mysql_ascii"]}
{"id": "C117", "title": "Settings of the parent reach its sessions", "statement": "A plain key set in the parent configuration is effective in a session that did not set it. [Violated for the keys of the built-in defaults, which every session has as its own.]", "quantifier": "every session and key", "why_tests_cant": "All configurations, all key classes.", "anchors": ["syncanysql/config.py: SessionConfig.get, GlobalConfig.merge_config"]}
{"id": "C118", "title": "Configuration reads see the writes of other sessions", "statement": "A configuration read reflects all previous set calls of the session and of those it inherits from; setting NULL removes a value. [Violated: no write is seen after the first read; NULL does not remove what is inherited; a database set to something other than JSON loses its properties.]", "quantifier": "every history of set and get calls", "why_tests_cant": "Histories are unbounded, the failure needs a particular interleaving.", "anchors": ["syncanysql/config.py: SessionConfig.get, SessionConfig.set, GlobalConfig.set"]}
{"id": "C119", "title": "The other specifiers of DATE_FORMAT", "statement": "%c %D %e %h %i %k %l %M %s %W and the others of MySQL's table, years before 1000 and unknown specifiers give what MySQL's table says. [Violated: they have Python's meaning.]", "quantifier": "every date", "why_tests_cant": "all dates and formats of any length", "anchors": ["syncanysql/calculaters/mysql_funcs/datetime_funcs.py: mysql_date_format, mysql_time_format"]}
{"id": "C120", "title": "SET GLOBAL of settings, SET of expressions, special names", "statement": "SET GLOBAL works for settings and for expressions; an expression sees the old value of its variable; any name can be set; GLOBAL and SESSION are words of their own. [Violated in every clause.]", "quantifier": "every name, value and session", "why_tests_cant": "all texts and environments", "anchors": ["syncanysql/taskers/set.py: SetCommandTasker", "syncanysql/compiler.py: compile_expression"]}
{"id": "C121", "title": "INSERT VALUES of mixed columns, expressions, without columns", "statement": "INSERT stores every value unchanged, evaluates expressions, and takes the columns of the table when none are listed. [Violated: the first number decides the type, expressions are NULL, the column list is required.]", "quantifier": "every row", "why_tests_cant": "the type of a column depends on all the rows above; needs all lists of rows", "anchors": ["syncanysql/compiler.py:Compiler.compile_insert_into", "syncanysql/compiler.py:Compiler.parse_const"]}
{"id": "C122", "title": "Columns over joined tables", "statement": "A column that uses joined tables has the value it has in SQL, also with BETWEEN and with ON conditions that refer to each other. [Violated by BETWEEN and by cycles.]", "quantifier": "every expression and join graph", "why_tests_cant": "All graphs.", "anchors": ["syncanysql/compiler.py: Compiler.compile_join_column_tables, compile_join_column"]}
{"id": "C123", "title": "A configuration file overrides what it extends", "statement": "Loading a configuration file reads the files it extends, in order and recursively, and then the file itself. About every setting (a key, an entry of a section, a property of a database or cache) the last file read that says something decides, so a file has precedence over what it extends. Files that extend each other in a circle, and files that extend one that cannot be read, are refused.", "quantifier": "every set of files, arrangement of extends (also shared and circular), setting and depth of the stack", "why_tests_cant": "files extend each other without bound", "anchors": ["syncanysql/config.py: GlobalConfig.load_config, GlobalConfig.merge_config"]}
{"id": "C124", "title": "The current directory's configuration has precedence over the home directory's", "statement": "When the configuration files of the current directory and of the home directory both say something about a setting, the current directory's is seen. [Violated: the files are read in the order of a Python set, which depends on the hash seed of the process.]", "quantifier": "all pairs of directories, settings, values and set orders", "why_tests_cant": "the order changes from process to process", "anchors": ["syncanysql/config.py: GlobalConfig.load", "docs/configure.md"]}
{"id": "C125", "title": "Every setting is decided by the nearest place that makes it", "statement": "After loading, every setting that does not belong to a database is the one given to the engine, else the one made before loading, else that of the last of the configuration files read that says something, else the default.", "quantifier": "every file system, order of reading, custom and default configuration and setting", "why_tests_cant": "all combinations of files and settings", "anchors": ["syncanysql/config.py: GlobalConfig.load, GlobalConfig.load_config, GlobalConfig.merge_config"]}
{"id": "C126", "title": "The databases after loading", "statement": "After loading, the databases - and -- are always there, with the drivers textline and memory unless configured otherwise. What is configured for a database is kept (but for encoding and date formats), nothing is added to other databases; a -- on Redis gets its prefix, serializer and expiry where these are not configured.", "quantifier": "every file system, configuration, database and property", "why_tests_cant": "all combinations of files and databases", "anchors": ["syncanysql/config.py: GlobalConfig.load"]}
{"id": "C127", "title": "A file database's own encoding and formats have precedence over the global ones", "statement": "The encoding and date formats a textline, JSON or CSV database is configured with are kept; the global ones are used for databases that have none. [Violated: a global one replaces the database's own.]", "quantifier": "every file system, configuration, database and format", "why_tests_cant": "all combinations of files and databases", "anchors": ["syncanysql/config.py: GlobalConfig.load"]}
{"id": "C128", "title": "Initialisation scripts", "statement": "The scripts run at the start are exactly those named under executes in the configuration files read, in the order of reading, then those of the settings made before and those given to the engine; each is taken from where its name says or else from the home directory; when one is found nowhere loading fails and none is run.", "quantifier": "every file system, configuration and list of scripts", "why_tests_cant": "all combinations of files and scripts", "anchors": ["syncanysql/config.py: GlobalConfig.load, GlobalConfig.merge_config", "syncanysql/main.py: main"]}
{"id": "C129", "title": "An initialisation script runs once", "statement": "A script named in one configuration file runs once. [Violated: when two files extend the file that names it, it runs twice.]", "quantifier": "every file system and arrangement of extends", "why_tests_cant": "files extend each other without bound", "anchors": ["syncanysql/config.py: GlobalConfig.load_config, GlobalConfig.merge_config"]}
{"id": "C130", "title": "Parameters of virtual views", "statement": "For every view in which each #{ begins a parameter #{name}, #{name__op} or #{name:default}, the text of the view becomes the written one with %s for each parameter and its parameters are those written, in their order, each with its column, the operator named (= without one) and its default (JSON where it can be read as such, else text); a parameter with an unknown operator makes the SET fail.", "quantifier": "every view text, parameter list and JSON reader", "why_tests_cant": "views are arbitrary texts with any number of parameters", "anchors": ["syncanysql/config.py: GlobalConfig.parse_virtual_view_args"]}
{"id": "C131", "title": "Positional parameters stay aligned", "statement": "In every view the i-th %s of the resulting text is the i-th parameter. [Violated: %s written in the view is not escaped, and a parameter whose text ends the default of another is replaced inside it, which is then left in the text.]", "quantifier": "every view text", "why_tests_cant": "views are arbitrary texts", "anchors": ["syncanysql/config.py: GlobalConfig.parse_virtual_view_args"]}
{"id": "C132", "title": "SELECT with LEFT JOINs as a whole", "statement": "SELECT columns FROM t LEFT JOIN u ON ... LEFT JOIN ... WHERE w HAVING h ORDER BY o LIMIT n OFFSET m returns: of the rows of the joins (each row of t with the row of each joined table that its ON selects, NULLs where there is none) that satisfy w and h, each turned into a row of the listed expressions, arranged by o, the n rows after the first m. [Violated: ORDER BY a column of a joined table sorts on the result column of that name, whatever it is made of, and is refused when there is none.]", "quantifier": "every query, list of joins, database, comparison and enumeration order of sets in which each row has at most one match in each joined table", "why_tests_cant": "columns, keys and filters are compiled one by one to loads nested around calculations; queries, joins and data are unbounded", "anchors": ["syncanysql/compiler.py: compile_select", "syncanysql/compiler.py: compile_select_column", "syncanysql/compiler.py: compile_join_column", "syncanysql/compiler.py: compile_where_condition_column", "syncanysql/compiler.py: compile_order"]}
{"id": "C133", "title": "Grouped SELECT with LEFT JOINs as a whole", "statement": "A SELECT with LEFT JOINs and with aggregates or GROUP BY returns one row for each group of the rows of the joins that satisfy WHERE that satisfies HAVING, holding the aggregates over the rows of the group, arranged by ORDER BY and cut by LIMIT/OFFSET; how the rows are divided into batches does not matter. [Violated by what violates C58 and C132.]", "quantifier": "every query, list of joins, database, comparison, enumeration order of sets and division into batches in which each row has at most one match in each joined table", "why_tests_cant": "queries, joins, data and batches are unbounded", "anchors": ["syncanysql/compiler.py: compile_select", "syncanysql/compiler.py: compile_aggregate_column", "syncanysql/compiler.py: compile_group_column", "syncanysql/compiler.py: compile_join_column"]}
{"id": "C134", "title": "SELECT with INNER JOINs as a whole", "statement": "SELECT columns FROM t INNER JOIN u ON ... INNER JOIN ... WHERE w HAVING h ORDER BY o LIMIT n OFFSET m returns: of the rows of the joins (rows of t together with the rows of every joined table that its ON selects) that satisfy w and h, each turned into a row of the listed expressions, arranged by o, the n rows after the first m.  A query none of whose ON conditions compares a column of its own table with an expression of the primary table is refused.", "quantifier": "every query, list of INNER JOINs, database, comparison and enumeration order of sets in which each row has at most one match in each joined table", "why_tests_cant": "INNER JOIN is compiled by rewriting the text of the query to LEFT JOIN and extra IS NOT NULL conditions; whether the extra conditions, combined with any WHERE, keep exactly the matching rows is a question about all queries and data", "anchors": ["syncanysql/compiler.py: optimize_rewrite", "syncanysql/compiler.py: optimize_rewrite_inner_join", "syncanysql/compiler.py: parse_joins", "syncanysql/compiler.py: compile_select"]}
{"id": "C135", "title": "Grouped SELECT with INNER JOINs as a whole", "statement": "A SELECT with INNER JOINs and with aggregates or GROUP BY returns one row for each group of the rows of the joins that satisfy WHERE that satisfies HAVING, holding the aggregates over the rows of the group, arranged by ORDER BY and cut by LIMIT/OFFSET; how the rows are divided into batches does not matter.", "quantifier": "every query, list of INNER JOINs, database, comparison, enumeration order of sets and division into batches in which each row has at most one match in each joined table", "why_tests_cant": "queries, joins, data and batches are unbounded", "anchors": ["syncanysql/compiler.py: optimize_rewrite_inner_join", "syncanysql/compiler.py: compile_select", "syncanysql/compiler.py: compile_aggregate_column"]}
{"id": "C136", "title": "SELECT DISTINCT with joins as a whole", "statement": "SELECT DISTINCT columns FROM t with LEFT JOINs (or INNER JOINs) returns every row that the query without DISTINCT and LIMIT returns exactly once, arranged by ORDER BY and cut by LIMIT/OFFSET.", "quantifier": "every query, list of joins of one of the two kinds, database, comparison, enumeration order of sets and division into batches in which each row has at most one match in each joined table", "why_tests_cant": "queries, joins, data and batches are unbounded", "anchors": ["syncanysql/compiler.py: optimize_rewrite_inner_join", "syncanysql/compiler.py: compile_select", "syncanysql/compiler.py: compile_distinct_column"]}
{"id": "C137", "title": "Type annotations of columns", "statement": "`a[t1;...;tn]` in an expression is the value of a converted by t1, then by t2, and so on; every spelling of a type in any case means its type; types nobody knows are ignored.", "quantifier": "every column name, list of types and their arguments, row and meaning of the conversions", "why_tests_cant": "names, lists of types and data are unbounded", "anchors": ["syncanysql/compiler.py: parse_column", "syncanysql/compiler.py: compile_column", "syncanysql/compiler.py: TYPE_FILTERS"]}
{"id": "C138", "title": "Casts, and typed columns in WHERE", "statement": "CAST(a AS T) is the value of a (with its type annotation, if it has one) converted to T.  A WHERE condition on a typed or cast column compares the converted value, also when it is compared with a subquery.", "quantifier": "every column, annotation, cast, row, meaning of the conversions and data source", "why_tests_cant": "the condition is pushed to a data source under a key built from the column; whether the key says enough is a question about all columns, casts and rows", "anchors": ["syncanysql/compiler.py: parse_column", "syncanysql/compiler.py: parse_cast_typing_filter", "syncanysql/compiler.py: compile_where_condition", "syncanysql/compiler.py: compile_query_condition"]}
{"id": "C139", "title": "Names in WHERE are columns of the table", "statement": "A column name in WHERE denotes the column of the table, whatever names the columns of the result have.", "quantifier": "every query and database", "why_tests_cant": "queries and data are unbounded", "anchors": ["syncanysql/compiler.py: compile_where_condition_column", "syncanysql/compiler.py: compile_select"]}
{"id": "C140", "title": "Calls of SQL functions", "statement": "A call f(a1, ..., an) of a SQL function returns what the function returns for these values, an argument that is left out having its default; a call that fails gives NULL and does not end the query.", "quantifier": "every function (number of parameters, defaults, variables, behaviour) and every list of arguments", "why_tests_cant": "functions, including registered ones, and arguments are unbounded; which of two ways a function is called depends on its compiled code", "anchors": ["syncanysql/calculaters/mysql_calculater.py: MysqlCalculater"]}
{"id": "C141", "title": "Registered functions", "statement": "After register_mysql_func(name, f) a call of name, in any spelling, calls f, and all other functions are what they were.", "quantifier": "every table of functions, name, function, spelling and arguments", "why_tests_cant": "names, tables and arguments are unbounded", "anchors": ["syncanysql/calculaters/mysql_calculater.py: register_mysql_func", "syncanysql/calculaters/mysql_calculater.py: find_func", "syncanysql/compiler.py: compile_calculate"]}
{"id": "C142", "title": "Mathematical functions", "statement": "SQRT, EXP, LN, LOG, POW, SIN, ASIN, COS, ACOS, TAN, ATAN give the value of the function at the number (also when the number is written as text), and NULL for NULL, for what is no number and outside the domain of the function; LOG(x) uses its default base.", "quantifier": "every function of Python's math, argument and way of reading numbers", "why_tests_cant": "all numbers and texts", "anchors": ["syncanysql/calculaters/mysql_funcs/number_funcs.py: mysql_sqrt", "syncanysql/calculaters/mysql_funcs/number_funcs.py: mysql_pow", "syncanysql/calculaters/mysql_funcs/number_funcs.py: mysql_log"]}
{"id": "C143", "title": "ROW_INDEX and ROW_LAST", "statement": "In every query ROW_INDEX() is 1 in the first row, 2 in the second and so on, and ROW_LAST(x) is NULL in the first row and the value x had in the previous row in every other; several uses in one query do not influence each other.", "quantifier": "every query with any number of such columns and any number of rows", "why_tests_cant": "the functions keep state from row to row; queries and rows are unbounded", "anchors": ["syncanysql/calculaters/row_calculater.py: RowIndexCalculater", "syncanysql/calculaters/row_calculater.py: RowLastCalculater"]}
{"id": "C144", "title": "SELECTs within SELECTs, UNION ALL and WITH, to any depth", "statement": "A statement made of SELECTs, subqueries in FROM, UNION ALL and WITH, nested to any depth, returns what SQL gives it: each part evaluated by itself, a name of WITH standing in the body for the rows of its query; no table is changed by it. [Violated: a name of WITH is also seen outside of its scope.]", "quantifier": "every statement of this form (any depth, any clauses of C57-C59 at each level), all tables and rows, every division into batches", "why_tests_cant": "statements nest without bound and every level reads what another one wrote", "anchors": ["syncanysql/compiler.py: compile_subquery", "syncanysql/compiler.py: compile_union", "syncanysql/compiler.py: compile_with", "syncanysql/compiler.py: compile_select"]}
{"id": "C145", "title": "INSERT INTO ... SELECT stores the rows of the SELECT", "statement": "INSERT INTO t (columns) SELECT ... stores one record for each row of the SELECT (or UNION ALL), in order, with its i-th value under the i-th listed column, or under the names of the SELECT when there is no list; a list of another length is refused. [Violated: the list is not looked at, and a WITH after INSERT INTO is lost.]", "quantifier": "every INSERT with any nested SELECT, list of columns and contents of the tables", "why_tests_cant": "all statements and tables", "anchors": ["syncanysql/compiler.py: compile_insert_into"]}
{"id": "C146", "title": "INSERT INTO ... SELECT writes to the table and in the way that is asked for", "statement": "The rows of INSERT INTO t<options> SELECT ... or UNION go to the table t and are written in the way its options say (I, U, UI, UDI, DI). [Violated for UNION: always I.]", "quantifier": "every database, table name and list of options, every SELECT", "why_tests_cant": "the output is a text that is taken apart and put together again; names are arbitrary texts", "anchors": ["syncanysql/compiler.py: compile_insert_into", "syncanysql/compiler.py: compile_union", "syncanysql/compiler.py: compile_select"]}
{"id": "C147", "title": "SELECT from several tables (FROM a, b, ...) as a whole", "statement": "A SELECT whose FROM lists several tables, whose WHERE compares a column of each further table with a constant or with columns of the tables before it, returns SQL's result: of all combinations of rows of the tables those that satisfy WHERE (and HAVING), projected or grouped, in the order of ORDER BY, cut by LIMIT/OFFSET; joins written after the list take part as well.", "quantifier": "every list of tables, WHERE clause (as a conjunction), select list, grouping, HAVING, ORDER BY, LIMIT, and every content of the tables with at most one partner per row in each further table", "why_tests_cant": "tests can only try a few FROM lists and table contents; where each conjunct goes and what is left in the WHERE depends on the whole clause", "anchors": ["syncanysql/compiler.py:optimize_rewrite", "syncanysql/compiler.py:optimize_rewrite_multi_select", "syncanysql/compiler.py:optimize_rewrite_parse_condition"]}
{"id": "C148", "title": "Variables in a select list take effect row by row, left to right", "statement": "In SELECT e1, e2, ... FROM t, @v reads the last value assigned to it and @v := e assigns at once, rows in order and columns from left to right, each expression evaluated once per row; the rows printed, and the variables afterwards, are those of this evaluation (so SELECT @n := @n + 1 numbers the rows), and variables of enclosing contexts keep their values. [Violated: -@v as a column loses its sign, an assignment in the first argument of IFNULL/COALESCE is carried out twice.]", "quantifier": "every select list of constants, columns, variables, assignments, function calls, IF, AND, OR, IFNULL; every table content; every environment of nested contexts", "why_tests_cant": "tests can only try a few lists and tables; the values depend on the whole history of assignments", "anchors": ["syncanysql/compiler.py:_parse_parameter", "syncanysql/compiler.py:compile_calculate", "syncanysql/compiler.py:parse_const", "syncanysql/compiler.py:compile_const", "syncanysql/calculaters/env_variable_calculater.py:CurrentEnvVariableCalculater"]}
{"id": "C149", "title": "Variables in WHERE have the values of the time the query runs", "statement": "A WHERE that compares a column with an expression of variables (col = @v, col > @v + 1, col IN (@v, ...)) uses the values the variables have when the query runs. [Violated: IN with a list of only constants and variables uses the values of the time the statement was compiled, before the earlier statements of the script ran, and -@v there loses its sign.]", "quantifier": "every expression without columns, every IN list, every environment when the statement is compiled and every environment when it runs", "why_tests_cant": "tests can only try single statements, where both environments are the same", "anchors": ["syncanysql/compiler.py:compile_where_condition", "syncanysql/compiler.py:parse_const", "syncanysql/compiler.py:is_const"]}
{"id": "C150", "title": "Raw SQL blocks define their views and nothing else of the statement changes", "statement": "In a statement with raw SQL blocks, /* raw(db.view) */ ( ... ) /* endraw */ or /* raw(db.view) ... endraw */, each block defines the virtual view db.view with exactly the text between the marks (blanks around it removed), in the order of the blocks and before the statement is compiled; in the statement each block is replaced by db.view and every other character is kept; a block whose name is not of the form db.view is an error, and a statement without blocks is compiled as written. [The blocks are replaced wherever they stand, in string literals as well.]", "quantifier": "every number of blocks, every text between and around them, every body without endraw and without another block, repeated blocks included", "why_tests_cant": "tests can only try a few texts; the matching is by regular expressions and textual replacement over the whole statement", "anchors": ["syncanysql/executor.py:RAW_SQL_RE", "syncanysql/executor.py:Executor.run", "syncanysql/taskers/set.py:SetCommandTasker.start"]}
{"id": "C151", "title": "Global variables: command line, then the program's own names, then the environment", "statement": "A name given on the command line as --k=v (quotes around v removed) or --k (true) has the value of the last such argument; otherwise home, syncany_home, cwd and platform are the program's own values whatever the environment says (cwd follows %cd); otherwise the value is that of the environment variable spelled so up to case; any other name is undefined.", "quantifier": "every command line, every environment, every name; every value without = (values with = are cut, refuted for all of them)", "why_tests_cant": "tests run under one environment and one command line", "anchors": ["syncanysql/executor.py:EnvVariables.build_global", "syncanysql/prompt.py:CliPrompt.run_magic_cmd"]}
{"id": "C152", "title": "A statement's options are what the user set, else the defaults", "statement": "Every statement is compiled with the options verbose, timeout, limit, batch, streaming, recovery, join_batch, insert_batch, use_input, use_output and use_output_type as the user's SET @option / set_variable in this or an outer context gave them, else given on the command line, else with their documented defaults; nothing else influences them.", "quantifier": "every option, every chain of contexts, every process environment and command line", "why_tests_cant": "the value depends on the whole process environment, which tests do not vary", "anchors": ["syncanysql/executor.py:Executor.compile", "syncanysql/executor.py:EnvVariables.get"]}
{"id": "C153", "title": "Interactive session: each statement acts alone and in order", "statement": "At the interactive prompt, whatever is typed before, refused by the compiler, failed, or broken off by Control-C, each submitted statement acts on the current world exactly as if it were given alone to a new executor; no task of an earlier statement is ever executed later; statements are numbered consecutively as accepted; ! and %cd act on the world only; blank input and Control-C at the prompt do nothing; nothing after exit or the end of input has any effect.", "quantifier": "every sequence of typed texts, interrupts and end of input; every behaviour of the statements (an abstract machine), including streaming ones and interrupts at any point", "why_tests_cant": "unit tests cannot enumerate interleavings of failures and interrupts, and the prompt needs a terminal", "anchors": ["syncanysql/prompt.py:CliPrompt.run", "syncanysql/executor.py:Executor.run", "syncanysql/executor.py:Executor.execute"]}
{"id": "C154", "title": "exit leaves the prompt at once", "statement": "Typing exit at the prompt, in any case and with or without a semicolon, submits the text at once and ends the session.", "quantifier": "every text beginning with exit up to case", "why_tests_cant": "the decision to submit and the decision to leave are taken by two different functions over all texts", "anchors": ["syncanysql/prompt.py:CliPrompt.check_complete", "syncanysql/prompt.py:CliPrompt.run"]}
{"id": "C155", "title": "A statement of any shape means what its parts mean", "statement": "A statement made of SELECTs - with LEFT or INNER JOINs of tables and subqueries, WHERE, aggregates, GROUP BY, HAVING, DISTINCT, window functions, ORDER BY, LIMIT -, subqueries in FROM and JOIN, UNION ALL and WITH, nested to any depth, returns SQL's result: every part is evaluated by itself on the results of its parts, and a name of WITH stands for the rows of its query in the body only; afterwards no table except the names of WITH has changed.", "quantifier": "every statement tree, every content of the tables, every division into batches, every order in which Python enumerates sets of tables", "why_tests_cant": "depth and shape of the tree and the data are unbounded", "anchors": ["syncanysql/compiler.py:Compiler.compile_query", "syncanysql/compiler.py:Compiler.compile_subquery", "syncanysql/compiler.py:Compiler.parse_joins", "syncanysql/compiler.py:Compiler.compile_union", "syncanysql/compiler.py:Compiler.compile_with", "syncanysql/taskers/query.py:QueryTasker.start"]}
{"id": "C156", "title": "The columns of a select list do not disturb each other", "statement": "A select list of columns and JSON_EXTRACT, JSON_SET and JSON_REMOVE calls on columns of the row or on texts gives, for each row, in every column the value the expression has by itself: a call of JSON_SET or JSON_REMOVE yields a changed document and leaves the document of the row, and what other columns show, as it was.", "quantifier": "every row with nested documents, every select list of such calls, every reader of JSON texts", "why_tests_cant": "documents, paths and the select list are unbounded; interference appears only for particular combinations of columns", "anchors": ["syncanysql/calculaters/mysql_funcs/json_funcs.py:mysql_json_set", "syncanysql/calculaters/mysql_funcs/json_funcs.py:mysql_json_remove", "syncanysql/calculaters/mysql_funcs/json_funcs.py:mysql_json_extract", "syncanysql/calculaters/mysql_funcs/json_funcs.py:set_json_path_value", "syncanysql/calculaters/mysql_funcs/json_funcs.py:remove_json_path_value"]}
{"id": "C157", "title": "Queries that are as they should be are accepted", "statement": "A SELECT is compiled without an error whenever its HAVING consists of comparisons, IN, IS, NOT and BETWEEN over result columns joined by AND and OR, its ORDER BY has result columns only or only columns of the primary table written with its name, and GROUP BY names no aggregate; with LEFT JOINs moreover when ON conditions name their tables, refer to tables before them only and equate no column twice, the tables of all expressions are joined, every joined table is used somewhere in the query, and BETWEEN is not used in an expression with columns of joined tables.", "quantifier": "every query, every number and order of joins, every order in which Python enumerates sets of tables", "why_tests_cant": "all queries of unbounded size; the recursion over joined tables must end for every acyclic join graph", "anchors": ["syncanysql/compiler.py:Compiler.compile_query", "syncanysql/compiler.py:Compiler.compile_join_column_tables", "syncanysql/compiler.py:Compiler.compile_having_condition", "syncanysql/compiler.py:Compiler.compile_order", "syncanysql/compiler.py:Compiler.parse_on_condition"]}
{"id": "C158", "title": "A query in the supported form is compiled and returns SQL's result", "statement": "Every SELECT that is as C157 asks (and as C57-C59, C65, C132-C136 ask) is compiled to one plan, and that plan, run on any tables, returns SQL's result: for one table, LEFT JOINs or INNER JOINs; with or without aggregates and GROUP BY, or with DISTINCT; and for window functions. All conditions are conditions on the query and its tables, none on what the compiler made of it. Queries with INNER JOINs and window functions are accepted under corresponding conditions. [Violated by what violates those properties.]", "quantifier": "every query of the form, every contents of the tables, every division into batches, every order in which Python enumerates sets of tables", "why_tests_cant": "all queries and all tables; acceptance and result together", "anchors": ["syncanysql/compiler.py:Compiler.compile_query", "syncanysql/compiler.py:Compiler.compile_select", "syncanysql/compiler.py:Compiler.optimize_rewrite_inner_join", "syncanysql/compiler.py:Compiler.compile_window_column", "syncanysql/taskers/query.py:QueryTasker"]}
{"id": "C159", "title": "The ways to write LIMIT and OFFSET", "statement": "LIMIT n, LIMIT n OFFSET m, LIMIT m, n and OFFSET m at the end of a SELECT give the rows they ask for of the result without them (n > 0): in particular LIMIT m, n skips m rows and returns n, as LIMIT n OFFSET m; what stands behind the clause is left to be read.", "quantifier": "every query (aggregated, sorted, filtered by HAVING or a residual WHERE, or row by row), every n > 0 and m, every text behind the clause", "why_tests_cant": "all numbers, queries and rows", "anchors": ["syncanysql/compiler.py:CompilerDialect.Parser._parse_limit", "syncanysql/compiler.py:CompilerDialect.Parser._parse_offset", "syncanysql/compiler.py:Compiler.compile_select"]}
{"id": "C160", "title": "COUNT in all its forms", "statement": "COUNT(*) is the number of rows of a group, COUNT(e) that of the rows where e is not NULL, COUNT(DISTINCT e) that of the different values other than NULL, COUNT(DISTINCT a, b, ...) that of the different combinations without a NULL; the parts of a group are put together to the count of the whole. [Violated: combinations with a NULL are counted too, in every group that has one.]", "quantifier": "every group of rows, every list of expressions, every division of the rows into batches", "why_tests_cant": "all groups of any size", "anchors": ["syncanysql/compiler.py:Compiler.compile_aggregate_value", "syncanysql/compiler.py:Compiler.compile_aggregate_calculate", "syncanysql/calculaters/aggregate_calculater.py:AggregateDistinctCountCalculater", "syncanysql/calculaters/aggregate_calculater.py:AggregateCountCalculater"]}
{"id": "C161", "title": "Calls of aggregates", "statement": "A call of an aggregate computes the aggregate of its name (in any case; groupArray, groupUniqArray, groupBitAnd, groupBitOr, groupBitXor are second spellings) over all its arguments; DISTINCT in any other aggregate than COUNT and names that are none are refused. [Violated: the further arguments of COUNT, MAX, MIN and GROUP_CONCAT are ignored.]", "quantifier": "every call, every name, every set of registered aggregates", "why_tests_cant": "all names and registrations", "anchors": ["syncanysql/compiler.py:Compiler.is_aggregate", "syncanysql/compiler.py:Compiler.compile_aggregate_column", "syncanysql/compiler.py:Compiler.compile_aggregate_calculate"]}
{"id": "C162", "title": "Tables named by variables", "statement": "FROM @t (and INSERT INTO @t) means the table whose name is the value of @t at the time the statement has its turn in the script; a variable that is undefined, or whose value is no text, is refused. [Violated: if @t had a value before, selecting another one INTO @t in the same script does not count; a file name selected INTO @t is taken as the name of a table in memory; a NULL variable leads to the table `None`.]", "quantifier": "every script of SET, SELECT INTO and queries over any tables, named or by variable; every state of the variables before it", "why_tests_cant": "all scripts and all states of the variables", "anchors": ["syncanysql/compiler.py:Compiler.parse_table", "syncanysql/taskers/query.py:QueryTasker.compile_tasker", "syncanysql/taskers/query.py:QueryTasker.execute_updater", "syncanysql/taskers/into.py:IntoTasker", "syncanysql/executor.py:Executor.run"]}
{"id": "C163", "title": "Correlated subqueries with DISTINCT, GROUP BY, HAVING and ORDER BY", "statement": "A subquery that is tied to the outer query by equalities of columns gives for every outer row the values SQL gives for that row alone, in the order asked for, also with DISTINCT, GROUP BY, HAVING and ORDER BY, however many outer rows are evaluated together. [Violated: an aggregate without GROUP BY over no rows gives no value; with other conditions on the outer query DISTINCT leaves equal values.]", "quantifier": "every subquery of this form, every select list, HAVING, ORDER BY, all rows of the tables and every batch of outer rows", "why_tests_cant": "all tables, batches and subqueries", "anchors": ["syncanysql/compiler.py:Compiler.parse_subquery", "syncanysql/compiler.py:Compiler.compile_query_condition", "syncanysql/calculaters/query_tasker_calculater.py:ExecuteQueryTaskerCalculater.calculate"]}
{"id": "C164", "title": "Scripts on tables", "statement": "A script of SELECT (any nesting, joins, windows, UNION ALL, WITH), INSERT \u2026 SELECT, INSERT \u2026 VALUES, DELETE and SET statements on tables does what SQL says when its statements are done one after the other: execution ends, the results are shown in the order of the statements, and the tables and the variables have the values of SQL at the end. A script that contains a refused statement changes no table and shows nothing. [Violated: a name of WITH that is used by two statements of a script keeps the rows of the first.]", "quantifier": "every script of any length, all contents of the tables and variables", "why_tests_cant": "all scripts and all tables", "anchors": ["syncanysql/executor.py:Executor.run", "syncanysql/executor.py:Executor.execute", "syncanysql/compiler.py:Compiler.compile_insert_into", "syncanysql/compiler.py:Compiler.compile_delete", "syncanysql/taskers/set.py:SetCommandTasker"]}
{"id": "C165", "title": "Statements and scripts in the supported form are accepted", "statement": "A statement of any shape (SELECTs with LEFT or INNER JOINs, aggregates, GROUP BY, DISTINCT, windows, subqueries in FROM, UNION ALL, WITH, to any depth), every SELECT of which is in the form of C157 and C158, is accepted and returns SQL's result; a script of any number of such statements, INSERTs, DELETEs and SETs is accepted, ends and does what SQL says. Every condition can be seen from the statements and the rows. [Violated by what violates C155 and C164.]", "quantifier": "every statement of any nesting depth, every script of any length, all tables", "why_tests_cant": "all statements, scripts and tables", "anchors": ["syncanysql/compiler.py:Compiler.compile_query", "syncanysql/compiler.py:Compiler.compile_select", "syncanysql/executor.py:Executor.run"]}
{"id": "C166", "title": "The key of written rows", "statement": "When a SELECT's rows are written in a mode that updates rows, they are matched with the rows that are there by the columns marked <pk> (all of them, in their order, under their names in the result); if none is marked, by the first column of the table of FROM or expression; without FROM by the first column; otherwise by `id`. Constants, aggregates and unmarked columns of joined tables are never the key. The table of FROM is read by the marked columns, or by those the key is computed from. [Violated: a marked column of a joined table is used for reading the table of FROM; a mark is seen only after types in brackets, `name[int]<pk>`; `name<pk>` is read as a column of that name.]", "quantifier": "every select list of any length, every name, type and mark", "why_tests_cant": "all select lists", "anchors": ["syncanysql/compiler.py:Compiler.compile_select_column", "syncanysql/compiler.py:Compiler.compile_select_calculate_column", "syncanysql/compiler.py:Compiler.compile_select", "syncanysql/compiler.py:Compiler.parse_column"]}
{"id": "C167", "title": "Subqueries as operands of WHERE", "statement": "In WHERE, a comparison with a subquery, IN and NOT IN of a subquery and EXISTS, under AND, OR, NOT and parentheses with other conditions, select exactly the rows SQL selects, whether the condition is pushed to the data source or evaluated on the rows (subqueries that do not depend on the row). [Violated: `(SELECT ...) < a` is taken for `a < (SELECT ...)`; `a NOT IN` of no rows loses rows with NULL; of `SELECT *` no column is taken; a subquery of several rows is compared by its first row; next to `a[int]` or a CAST of a column a subquery is refused (TypeError).]", "quantifier": "every condition of any depth, every result of the subqueries, every row", "why_tests_cant": "all conditions, subquery results and rows", "anchors": ["syncanysql/compiler.py:Compiler.compile_where_condition", "syncanysql/compiler.py:Compiler.compile_query_condition", "syncanysql/calculaters/mysql_funcs/logical_funcs.py:mysql_exists", "syncanysql/calculaters/mysql_funcs/logical_funcs.py:mysql_in"]}
{"id": "C168", "title": "Statements with subqueries in WHERE at any depth", "statement": "A statement whose SELECTs, at any level (in FROM, JOIN, UNION, WITH or in other WHERE subqueries), have WHERE clauses with subqueries is accepted or rejected whatever the tables hold, and returns what SQL says: the result of the SELECT with each subquery of its WHERE clause replaced by what that subquery returns by itself (a value or NULL in a comparison, the list of its values in IN, whether there are rows in EXISTS). [Violated where C167 is.]", "quantifier": "every statement of any depth, every content of the tables", "why_tests_cant": "statements nest without bound and results depend on all rows of all tables", "anchors": ["syncanysql/compiler.py:Compiler.compile_query_condition", "syncanysql/compiler.py:Compiler.compile_subquery", "syncanysql/taskers/query.py:QueryTasker.run"]}
{"id": "C169", "title": "HAVING with LIKE and with subqueries", "statement": "HAVING keeps exactly the rows of the result of which it is TRUE, also when it has LIKE, comparisons with subqueries, IN, NOT IN and EXISTS of subqueries, under AND, OR and parentheses with other conditions. [Violated: LIKE accepts texts of which only a beginning matches, treats `_` as itself, characters with a meaning in regular expressions as such and `%%` as a percent sign, and is case-sensitive where LIKE in WHERE is not; a subquery of several rows is compared by its first row; next to `a[int]` or a CAST of a column a subquery is refused (TypeError).]", "quantifier": "every condition of any depth, pattern, text, every result of the subqueries", "why_tests_cant": "all conditions, patterns, texts and subquery results", "anchors": ["syncanysql/compiler.py:Compiler.compile_having_condition", "syncanysql/compiler.py:Compiler.compile_query_condition"]}
{"id": "C170", "title": "What a column of the select list is, and which statements are grouped", "statement": "A column of the select list is computed over windows if a window occurs in its expression, over groups if an aggregate call occurs in it and no window, however deep in functions, CASE, parentheses, comparisons or lists but not in a subquery; it is computed with all of them, each as often as written; the statement has one row per group exactly if it says GROUP BY or DISTINCT or calls an aggregate; a column with an alias is never refused, one without only by its outermost form. [Violated: an aggregate next to a window, in a window's ORDER BY or PARTITION BY, or in an INTERVAL does not group the statement; an expression in parentheses without an alias is refused.]", "quantifier": "every expression tree, every set of registered aggregates, every select list", "why_tests_cant": "all expressions of any depth and shape", "anchors": ["syncanysql/compiler.py:Compiler.compile_select", "syncanysql/compiler.py:Compiler.parse_aggregate", "syncanysql/compiler.py:Compiler.parse_window_aggregate", "syncanysql/compiler.py:Compiler.is_calculate", "syncanysql/compiler.py:Compiler.is_aggregate"]}
{"id": "C171", "title": "Functions of a whole table", "statement": "SELECT f(\u2026) FROM (SELECT \u2026), one call of a function the parser does not know, without an alias, without WHERE, GROUP BY, HAVING, ORDER BY, LIMIT and without columns in its arguments, calls f once with all rows of the subquery in order and the values of the arguments, and its value is the result; every other SELECT is an ordinary one and needs an alias for the subquery. [Violated: joins and DISTINCT have no effect in such a SELECT; for every function, also one that is meant for single values or is an aggregate, leaving out the alias of the column changes what is computed.]", "quantifier": "every function, argument tree, select list, combination of clauses, list of rows", "why_tests_cant": "all argument expressions of any depth and all combinations of clauses", "anchors": ["syncanysql/compiler.py:Compiler.compile_pipleline_select", "syncanysql/compiler.py:Compiler.parse_calculate"]}
{"id": "C172", "title": "GET_VALUE", "statement": "GET_VALUE(x, k1, \u2026, kn) takes one step into the document per argument: a text names a member, an integer an element, a list of two or three integers a slice; a text with dots is several steps; more steps are steps into the result; it is refused exactly when an argument is neither a constant nor a variable nor a list. [Violated: NULL, or a variable not set when the statement is compiled, is the member named None; texts, NULLs and expressions in a list and its members after the third are ignored.]", "quantifier": "every document, every sequence of steps", "why_tests_cant": "all sequences of steps and all documents", "anchors": ["syncanysql/compiler.py:Compiler.compile_calculate"]}
{"id": "C173", "title": "The clock", "statement": "At every instant CURTIME and CURDATE are the time and date of CURRENT_TIMESTAMP in the configured time zone, UTC_TIME and UTC_DATE those of UTC_TIMESTAMP, and all show the same instant; within a statement CURRENT_TIMESTAMP is one value. [Violated: CURDATE follows the time zone of the process: for every two different zones there are instants at which it is another day; every call reads the clock again.]", "quantifier": "every instant and every two time zones", "why_tests_cant": "all instants and zones", "anchors": ["syncanysql/calculaters/mysql_funcs/datetime_funcs.py:mysql_curdate", "syncanysql/calculaters/mysql_funcs/datetime_funcs.py:mysql_currenttimestamp", "syncanysql/calculaters/mysql_funcs/datetime_funcs.py:mysql_utc_date"]}
{"id": "C174", "title": "Those who read the result of a query find it", "statement": "SELECT \u2026 INTO @v gives @v the value its result has by C13, and a correlated subquery loads the rows of the query it was rewritten to, whatever the query: with or without aggregates, read at once or in batches; nothing is left in the memory database. [Violated: a query that is computed in two passes - AVG, GROUP_CONCAT, GROUP_UNIQ_ARRAY, COUNT(DISTINCT \u2026), an expression of aggregates or of windows, or any grouping while @batch is set - writes its rows to another collection than the one that is read: the variable becomes the empty list, the subquery NULL for every outer row, and the rows stay in memory.]", "quantifier": "every query, batch size, result and content of the memory database", "why_tests_cant": "all queries and results; which queries take two passes is a question about all select lists", "anchors": ["syncanysql/taskers/query.py:QueryTasker.start", "syncanysql/taskers/query.py:QueryTasker.compile_reduce_config", "syncanysql/taskers/into.py:IntoTasker", "syncanysql/calculaters/query_tasker_calculater.py:ExecuteQueryTaskerCalculater"]}
{"id": "C175", "title": "Scripts with variables", "statement": "In a script, or in several scripts given to the same executor one after the other, whose statements are SELECT (with joins, windows, subqueries, UNION, WITH), SELECT \u2026 INTO @v, INSERT \u2026 SELECT, INSERT \u2026 VALUES, DELETE and SET, expressions read variables as the statements before left them, INTO stores the value C13 says, and results, tables and variables are in the end those of the statements done in order. [Violated within one script, as all statements are compiled first: a SET behind a SELECT changes what that SELECT reads; VALUES behind an INTO insert the old value of the variable; INTO of queries of two passes (C174). Statements given one at a time may stand in any order.]", "quantifier": "every sequence of scripts, number and nesting of statements, content of tables and variables", "why_tests_cant": "all scripts; what a variable is depends on everything before, and on whether it is read when compiling or when running", "anchors": ["syncanysql/executor.py:Executor.run", "syncanysql/executor.py:Executor.execute", "syncanysql/taskers/into.py:IntoTasker", "syncanysql/taskers/set.py:SetCommandTasker", "syncanysql/calculaters/env_variable_calculater.py:CurrentEnvVariableCalculater.get_value", "syncanysql/compiler.py:Compiler.compile_select_into"]}
{"id": "C176", "title": "Streaming changes no result", "statement": "With `SET @streaming = 1` a statement that is alone in the queue ends, and does what it does without: the same rows read and written, the same success or failure, the same tables, the same values of aggregates. [Violated: a statement goes on with what its subquery has given so far as soon as the subquery yields, and drops the rest; the rows of a subquery are deleted when the statement yields before it has read them; AVG, COUNT(DISTINCT \u2026), GROUP_CONCAT and the like give the state of their calculater.]", "quantifier": "every shape of query, behaviour of its tasks (whatever they read, write, raise and wherever they yield), content of the tables, set of collections the database calls streaming", "why_tests_cant": "schedules: where the tasks yield depends on batches and data", "anchors": ["syncanysql/taskers/query.py:QueryTasker.run", "syncanysql/taskers/query.py:QueryTasker.run_yield", "syncanysql/taskers/query.py:QueryTasker.run_tasker", "syncanysql/taskers/query.py:QueryTasker.start", "syncanysql/executor.py:Executor.clear_temporary_memory_collection"]}
{"id": "C177", "title": "A signal stops the script", "statement": "When SIGTERM, SIGHUP or terminal() comes while a script runs, the script is stopped: what was done stays done, the query that is running does nothing more than what its subqueries have left to do, and no later statement runs; an executed file is stopped like the statements in its place. [Violated: a signal during the second pass of a query (GROUP BY with AVG, batches, windows), during SET/USE/SHOW, between two statements or while compiling is lost: everything that follows is done.]", "quantifier": "every script, nesting of executed files, and moment of the signal", "why_tests_cant": "the moment of a signal: every action of every script is a possible one", "anchors": ["syncanysql/executor.py:Executor.terminate", "syncanysql/executor.py:Executor.execute", "syncanysql/taskers/query.py:QueryTasker.terminate", "syncanysql/taskers/into.py:IntoTasker.terminate", "syncanysql/taskers/explain.py:ExplainTasker.terminate", "syncanysql/taskers/execute.py:ExecuteTasker.terminate", "syncanysql/main.py:main"]}
{"id": "C178", "title": "JSON texts are the documents they write", "statement": "JSON_DECODE(JSON_ENCODE(d)) is d for every document d, so different documents have different texts; JSON_VALID of a text is 1 exactly if the text is a JSON text of the grammar of RFC 8259 (blanks, escapes in either case, surrogate pairs, numbers without leading zeros; apart from the words NaN and Infinity, which Python takes too), JSON_DECODE gives the document the grammar assigns to it (of members of the same name the last one counts), and NULL for other texts; what JSON_ENCODE writes is such a text; the functions that take documents (JSON_EXTRACT, JSON_CONTAINS, JSON_CONTAINS_PATH, JSON_DEPTH, JSON_KEYS, JSON_LENGTH, JSON_SET, JSON_REMOVE) give the same for a document and for its text. [Violated: a document that is itself a text is read a second time when that text happens to be JSON, and JSON_VALID of NULL and of numbers is 1.]", "quantifier": "every JSON document (any depth, any characters in texts and keys) and every text", "why_tests_cant": "documents nest without bound and texts hold any characters", "anchors": ["syncanysql/calculaters/mysql_funcs/json_funcs.py:mysql_json_encode", "syncanysql/calculaters/mysql_funcs/json_funcs.py:mysql_json_decode", "syncanysql/calculaters/mysql_funcs/json_funcs.py:mysql_json_valid"]}
{"id": "C179", "title": "Tables that are not in the query are refused", "statement": "A query in which a column of a table is written that is neither the primary table nor joined is refused when it is compiled, wherever the column stands: in the select list, in an argument of an aggregate, in GROUP BY, WHERE, ON or ORDER BY. [Violated: in ON a comparison with a constant is taken as one of the joined table's own column, and ORDER BY ignores the table.]", "quantifier": "every query with joins, every expression in it (any depth), every table name", "why_tests_cant": "the column can stand anywhere in expressions of any size, in any conjunct of any ON", "anchors": ["syncanysql/compiler.py:parse_joins", "syncanysql/compiler.py:compile_select_column", "syncanysql/compiler.py:compile_where_condition", "syncanysql/compiler.py:parse_on_condition", "syncanysql/compiler.py:compile_order"]}
{"id": "C180", "title": "Tables in HAVING", "statement": "In HAVING of a query with joins a column written with its table is the column of that table; a column that is no result column is refused. [Violated: the table is ignored, the result column of that name is compared whatever it is; a column with its table inside an expression is refused; columns in the list of an IN are not looked up and read as NULL.]", "quantifier": "every query with joins without grouping, every HAVING, every content of the tables", "why_tests_cant": "the names can stand anywhere in HAVING, and the result must be right for all rows of all tables", "anchors": ["syncanysql/compiler.py:compile_having_condition", "syncanysql/compiler.py:compile_join_column_field"]}
{"id": "C181", "title": "Quoted names and wildcards in JSON paths", "statement": "JSON_EXTRACT finds members whose names need quoting: in a path of steps .name, [\"name\"] and [number] a quoted name may hold any character but ], and the answer is the value the path leads to, NULL if there is none; [*] gives the values the rest of the path leads to from the elements of an array, in order. [Violated: names quoted in MySQL's way (.\"name\") are looked for with their quotes; .* is the object itself instead of the values of its members; [*][*] is not the elements of the elements; [\"*\"] is the wildcard; where a wildcard finds nothing the answer is [] instead of NULL; JSON_SET with a wildcard adds a member *.]", "quantifier": "every document, every path of any length, every name and array", "why_tests_cant": "documents, names and paths are unbounded", "anchors": ["syncanysql/calculaters/mysql_funcs/json_funcs.py:parse_json_path", "syncanysql/calculaters/mysql_funcs/json_funcs.py:get_json_path_value", "syncanysql/calculaters/mysql_funcs/json_funcs.py:mysql_json_extract"]}
{"id": "C182", "title": "SET @use_output_type", "statement": "INSERT INTO t<options> with VALUES or SELECT writes the rows in the way that the first of the table's own options that is a way of writing (I, U, UI, UDI, DI in small or capital letters) says; if none is, in the way @use_output_type asks for by its short name or as insert, update, update_insert, update_delete_insert, delete_insert; else the rows are inserted. Setting @use_output_type changes neither the table a name leads to nor the databases, files and formats that are opened for it.", "quantifier": "every table name, list of options and value of @use_output_type, every SELECT", "why_tests_cant": "names, options and values are arbitrary texts", "anchors": ["syncanysql/compiler.py: parse_table", "syncanysql/compiler.py: compile_insert_into", "syncanysql/executor.py: Executor.compile"]}
{"id": "C183", "title": "The settings a query works with", "statement": "A query works with the configuration of its session as it is when the query is submitted: it gets the sections databases, caches, imports, sources, defines, variables, options and states exactly as the session reads them at that moment and no other section; the SETs before it in the script count, those after it do not; submitting a query changes no setting. [Violated between sessions: a SET in the parent does not reach the queries of a session that has submitted one before.]", "quantifier": "every history of SETs, reads and queries in any sessions; every script of one session", "why_tests_cant": "two caches (the merged configuration and the part passed to queries) have to stay in step through every history", "anchors": ["syncanysql/config.py: SessionConfig.get_tasker_extend_config", "syncanysql/executor.py: ContextConfigReader.read", "syncanysql/compiler.py: compile_query"]}
{"id": "C184", "title": "Options reach subqueries", "statement": "Every task of a statement, at any depth (subqueries, members of WITH, branches of UNION), runs with the options of the statement (@verbose, @timeout, @limit, @batch, @streaming, @recovery, @join_batch, @insert_batch), except that a task whose own query has a LIMIT read from the source uses that, and the recursive part of a WITH reads one row at a time. Options meant for the target (@use_input, @use_output, @use_output_type, \u2026) reach no subquery; no option leaks from one subquery to another, nor from the outer LIMIT into a subquery.", "quantifier": "every statement with any nesting of subqueries and any options", "why_tests_cant": "options travel in one flat dictionary under prefixed names; a collision or a late update would show at one nesting only", "anchors": ["syncanysql/compiler.py: compile_with, compile_subquery, compile_union", "syncanysql/taskers/query.py: QueryTasker.start", "syncanysql/calculaters/query_tasker_calculater.py: start", "syncanysql/config.py: CONST_CONFIG_KEYS"]}
{"id": "C185", "title": "SQL functions and comparisons inside statements", "statement": "A SELECT statement (with joins, window functions, subqueries in FROM, WHERE and HAVING, UNION ALL, WITH) that calls arithmetic operators, ABS/FLOOR/CEIL/SIGN, the text functions (CONCAT, LEFT, RIGHT, SUBSTRING, TRIM, REPLACE, REPEAT, REVERSE, LENGTH, CHAR_LENGTH, STARTSWITH, ENDSWITH, CONTAINS), LIKE or comparisons (=, <>, <, <=, >, >=, IN, BETWEEN, CASE) in its select list, WHERE, GROUP BY, HAVING or the arguments of aggregates and window functions returns SQL's result with SQL's meaning of those functions and comparisons. [Violated by LIKE with a pattern that does not end in '%', see C36.]", "quantifier": "every statement, all rows of all tables, every nesting of calls", "why_tests_cant": "the functions, the compilation of calls and the evaluation of rows are tested one by one, not in combination over all rows and statements", "anchors": ["syncanysql/calculaters/mysql_funcs/__init__.py: funcs", "syncanysql/calculaters/mysql_calculater.py: MysqlCalculater", "syncanysql/compiler.py: compile_calculate"]}
{"id": "C186", "title": "SQL aggregates inside statements", "statement": "A SELECT statement (with joins, GROUP BY, HAVING, window functions, subqueries, UNION ALL, WITH) that uses COUNT, COUNT(DISTINCT), SUM, MAX, MIN, AVG or GROUP_CONCAT, over groups or over windows, returns SQL's result with SQL's meaning of those aggregates: the number of non-NULL values, the sum of the numbers (an integer when all are), the greatest and least value, the mean, the texts joined by commas. [Violated by SUM and AVG over groups with NULLs, see C18 and C87.]", "quantifier": "every statement, all rows of all tables, every order in which the rows of a group are read, every way its rows are divided into batches", "why_tests_cant": "the calculaters are tested on short lists, one by one; that a statement's groups and windows reach them whole, in combination and through partial results, depends on all rows and batches", "anchors": ["syncanysql/calculaters/aggregate_calculater.py: AggregateCountCalculater, AggregateDistinctCountCalculater, AggregateSumCalculater, AggregateMaxCalculater, AggregateMinCalculater, AggregateAvgCalculater, AggregateGroupConcatCalculater", "syncanysql/compiler.py: compile_aggregate_calculate, compile_window_calculate", "syncanysql/taskers/query.py: QueryTasker, ReduceHooker"]}
{"id": "C187", "title": "Calls reach the functions of the source files", "statement": "A call of name(a1, ..., an) calls the function that the files of calculaters/mysql_funcs define for it (def mysql_<name>, the last one in the last file that has one), with the arguments in the order in which they are written, in any spelling of the name, whether the parser knows the function (and keeps its arguments by names, the last of them perhaps a list) or not. [Violated by functions whose def does not begin with mysql_: JSON_ARRAY_APPEND is never called; and where the parser's key differs from the name in the files.]", "quantifier": "all files and functions in them, every name, spelling and list of arguments, every class of functions of the parser", "why_tests_cant": "the files, names and numbers of arguments are unbounded; a test calls some functions with some numbers of arguments", "anchors": ["syncanysql/calculaters/mysql_funcs/__init__.py: funcs", "syncanysql/calculaters/mysql_funcs/json_funcs.py: funcs, json_array_append", "syncanysql/compiler.py: compile_calculate (Func)", "syncanysql/calculaters/__init__.py: is_mysql_func"]}
