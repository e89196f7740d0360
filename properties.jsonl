{"id": "C01", "title": "Fully qualified names are not rewritten", "statement": "If a statement names a table or function with exactly as many components as the connection's maximum name-path length, the name it resolves to is that path itself, whatever base path is set on the connection.", "quantifier": "every base path, every maximum, every written path of that length", "why_tests_cant": "base path, maximum and written path are unbounded and chosen independently by the user", "anchors": ["internal/name_path.go:NamePath.mergePath", "internal/name_path.go:NamePath.getMaxNum"]}
{"id": "C02", "title": "Resolution only ever prepends leading base components", "statement": "The path a name resolves to is some leading part of the connection's base path followed by the path as written (with dots inside components expanded); if the written path fits the maximum then so does the resolved one.", "quantifier": "every base path, maximum and non-empty written path", "why_tests_cant": "an unbounded space of paths; a single wrong splice for one length combination silently reads another table", "anchors": ["internal/name_path.go:NamePath.mergePath", "internal/name_path.go:NamePath.normalizePath"]}
{"id": "C03", "title": "Resolving a resolved name changes nothing", "statement": "Resolving a name twice gives the same path as resolving it once, for any connection state reachable through SetNamePath, AddNamePath and SetMaxNamePath.", "quantifier": "every history of configuration calls and every written path", "why_tests_cant": "depends on every reachable configuration state", "anchors": ["internal/name_path.go:NamePath.mergePath", "internal/name_path.go:NamePath.setPath", "internal/name_path.go:NamePath.addPath"]}
{"id": "C04", "title": "Name-path configuration is atomic and bounded", "statement": "A SetNamePath/AddNamePath call that returns an error leaves the connection's base path unchanged, and after any history of configuration calls the base path is no longer than the maximum allows.", "quantifier": "every history of SetMaxNamePath / SetNamePath / AddNamePath calls", "why_tests_cant": "a history property", "anchors": ["internal/name_path.go:NamePath.setPath", "internal/name_path.go:NamePath.addPath", "internal/name_path.go:NamePath.setMaxNum"]}
{"id": "C05", "title": "Different qualified names denote different stored objects", "statement": "Two different resolved paths never map to the same stored (SQLite) object name.", "quantifier": "every pair of component lists", "why_tests_cant": "a collision needs a particular pair of names; no finite set of names settles it", "anchors": ["internal/name_path.go:formatPath", "internal/catalog.go:Catalog.addTableSpec"]}
{"id": "C06", "title": "Catalog changes reported by a connection are the net effect", "statement": "After any sequence of catalog changes on a connection, an object is reported as Added iff the last change to its name created it, as Deleted iff the last change removed it, and never as both; Changed() is true iff something is reported.", "quantifier": "every history of create/drop table/function events", "why_tests_cant": "a history property over all interleavings of names", "anchors": ["internal/conn.go:Conn.addTable", "internal/conn.go:Conn.deleteTable", "internal/conn.go:Conn.addFunction", "internal/conn.go:Conn.deleteFunction", "internal/conn.go:ChangedCatalog.Changed"]}
{"id": "C07", "title": "Lookups see the latest definition", "statement": "After any sequence of CREATE / CREATE OR REPLACE / DROP statements, looking a table or function up yields the definition given by the most recent successful create, and nothing if the most recent change dropped it.", "quantifier": "every history of catalog statements", "why_tests_cant": "a history property", "anchors": ["internal/catalog.go:Catalog.AddNewTableSpec", "internal/catalog.go:Catalog.DeleteTableSpec", "internal/catalog.go:Catalog.addTableSpec", "internal/catalog.go:Catalog.deleteTableSpecByName", "internal/catalog.go:Catalog.resetCatalog"]}
{"id": "C08", "title": "Dropping one object leaves every other object alone", "statement": "Dropping a table or function changes the lookup result of no other table or function.", "quantifier": "every catalog state reachable by catalog statements and every pair of names", "why_tests_cant": "a frame property over all reachable states", "anchors": ["internal/catalog.go:Catalog.deleteTableSpecByName", "internal/catalog.go:Catalog.deleteFunctionSpecByName", "internal/catalog.go:Catalog.resetCatalog"]}
{"id": "C09", "title": "A reopened database has the same catalog", "statement": "After any history of catalog statements on permanent objects, a new process that opens the same database file and synchronises sees the same lookups as the process that made the changes.", "quantifier": "every history of catalog statements on one connection", "why_tests_cant": "a crash/restart property over all histories", "anchors": ["internal/catalog.go:Catalog.Sync", "internal/catalog.go:Catalog.saveTableSpec", "internal/catalog.go:Catalog.saveFunctionSpec", "internal/catalog.go:Catalog.DeleteTableSpec"]}
{"id": "C10", "title": "Temporary objects are never persisted", "statement": "Creating a TEMP table or TEMP function never writes a row to the persistent catalog.", "quantifier": "every history of catalog statements", "why_tests_cant": "a history property", "anchors": ["internal/catalog.go:Catalog.AddNewTableSpec", "internal/catalog.go:Catalog.AddNewFunctionSpec"]}
{"id": "C11", "title": "Other processes eventually see every change", "statement": "After one process commits any history of catalog changes, a Sync in another process that already had the database open gives it the same lookups.", "quantifier": "every interleaving of catalog statements in one process and Sync calls in another", "why_tests_cant": "an interleaving property", "anchors": ["internal/catalog.go:Catalog.Sync"]}
{"id": "C12", "title": "Exec runs statements in order and stops at the first failure", "statement": "For a multi-statement Exec, the statements that take effect are exactly the ones before the first failing statement, in text order, and the error reported is that failure.", "quantifier": "every list of statements and every failing position", "why_tests_cant": "any length and failure point", "anchors": ["driver.go:ZetaSQLiteConn.ExecContext"]}
{"id": "C13", "title": "Temporary objects do not outlive their Exec/Query", "statement": "After Exec returns, or after the Rows of a Query are closed, or after Query fails, every temporary object created by the call has been cleaned up exactly once, even when a later statement or another cleanup failed.", "quantifier": "every list of statements, every failing statement, every failing cleanup", "why_tests_cant": "failure points are unbounded in number and combination", "anchors": ["driver.go:ZetaSQLiteConn.ExecContext", "driver.go:ZetaSQLiteConn.QueryContext", "internal/rows.go:Rows.Close", "internal/stmt_action.go:CreateTableStmtAction.Cleanup", "internal/stmt_action.go:CreateFunctionStmtAction.Cleanup"]}
{"id": "C14", "title": "Statements run inside the open transaction", "statement": "Between BeginTx and Commit/Rollback every statement of the connection runs in that transaction, and afterwards none does, whether or not Commit/Rollback reported an error.", "quantifier": "every history of Begin/Commit/Rollback/Exec calls and every error outcome", "why_tests_cant": "a history property including failure outcomes", "anchors": ["driver.go:ZetaSQLiteConn.BeginTx", "driver.go:Tx.Commit", "driver.go:Tx.Rollback", "internal/conn.go:Conn.ExecContext"]}
{"id": "C15", "title": "Rolling back undoes catalog changes", "statement": "After a transaction that executed catalog statements is rolled back, lookups give what they gave before the transaction began.", "quantifier": "every history of statements inside the transaction", "why_tests_cant": "a history property with an abort point", "anchors": ["driver.go:Tx.Rollback", "internal/catalog.go:Catalog.AddNewTableSpec"]}
{"id": "C16", "title": "One database and catalog per DSN", "statement": "All connections opened with the same DSN share one database handle and one catalog, however the opens interleave.", "quantifier": "every interleaving of concurrent opens", "why_tests_cant": "schedules", "anchors": ["driver.go:newDBAndCatalog", "driver.go:ZetaSQLiteDriver.Open"]}
{"id": "C17", "title": "Named parameters are bound by name", "statement": "Each occurrence of @name receives the value passed under that name (ignoring case); the order in which the values are passed does not matter; too few values is an error.", "quantifier": "every list of parameters in a query and every list of passed values", "why_tests_cant": "unbounded lists, permutations", "anchors": ["internal/analyzer.go:getArgsFromParams", "internal/analyzer.go:getParamsFromNode", "internal/analyzer.go:getParameterMode"]}
{"id": "C18", "title": "Positional parameters are bound by position", "statement": "In a sequence of statements the i-th ? of the text receives the i-th passed value.", "quantifier": "every list of statements with any number of ? each and every list of values", "why_tests_cant": "unbounded lists", "anchors": ["internal/analyzer.go:getArgsFromParams", "internal/analyzer.go:Analyzer.Analyze"]}
{"id": "C19", "title": "Storage encoding is lossless", "statement": "Encoding any SQL value for storage in SQLite and decoding it gives back the same value, including nested arrays and structs and NULLs inside them.", "quantifier": "every SQL value of every supported type, of any nesting depth", "why_tests_cant": "unbounded nested values", "anchors": ["internal/encoder.go:EncodeValue", "internal/decoder.go:DecodeValue", "internal/codec.go:ValueLayout"]}
{"id": "C20", "title": "Storage encoding is injective on NULL and never confuses types", "statement": "The stored form of a value is NULL only for the NULL value, and decoding the stored form of a STRING, BYTES, DATE, ... yields a value of that same type.", "quantifier": "every SQL value", "why_tests_cant": "unbounded values; includes user strings that look like encoded values", "anchors": ["internal/encoder.go:EncodeValue", "internal/decoder.go:DecodeValue"]}
{"id": "C21", "title": "TIMESTAMP results convert back exactly", "statement": "TimeFromTimestampValue applied to the text a query returns for a TIMESTAMP gives the same instant to the microsecond, for times before and after 1970.", "quantifier": "every timestamp representable in int64 microseconds", "why_tests_cant": "2^64 instants", "anchors": ["timestamp.go:TimeFromTimestampValue", "internal/rows.go:Rows.assignInterfaceValue"]}
{"id": "C22", "title": "Timestamp text is read as a decimal number of seconds", "statement": "TimeFromTimestampValue reads its argument as a decimal number of seconds: any fraction of up to six digits denotes that fraction of a second.", "quantifier": "every decimal string", "why_tests_cant": "unbounded strings", "anchors": ["timestamp.go:TimeFromTimestampValue"]}
{"id": "C23", "title": "AND, OR and NOT follow three-valued logic", "statement": "AND, OR, NOT over TRUE/FALSE/NULL operands give the SQL three-valued result, for any number of operands and independent of operand order.", "quantifier": "every operand list", "why_tests_cant": "n-ary: unbounded operand lists", "anchors": ["internal/function.go:AND", "internal/function.go:OR", "internal/function.go:NOT", "internal/function_bind.go:bindAnd", "internal/function_bind.go:bindOr"]}
{"id": "C24", "title": "Comparison operators return NULL exactly on NULL operands", "statement": "=, <>, <, <=, >, >= return NULL iff an operand is NULL, and otherwise agree with one total order on the operands of that type.", "quantifier": "every pair of values of a type", "why_tests_cant": "unbounded value spaces", "anchors": ["internal/function_bind.go:bindEqual", "internal/function_bind.go:existsNull", "internal/value.go"]}
{"id": "C25", "title": "IS [NOT] DISTINCT FROM is never NULL", "statement": "IS DISTINCT FROM treats NULL as an ordinary value: it is false on two NULLs, true on one NULL, and otherwise the negation of =; IS NOT DISTINCT FROM is its exact complement.", "quantifier": "every pair of values", "why_tests_cant": "unbounded value spaces", "anchors": ["internal/function.go:IS_DISTINCT_FROM", "internal/function.go:IS_NOT_DISTINCT_FROM"]}
{"id": "C26", "title": "IN follows SQL NULL semantics", "statement": "x IN (list) is TRUE if some element equals x, NULL if none does but x or an element is NULL, and FALSE otherwise.", "quantifier": "every value and every list", "why_tests_cant": "unbounded lists", "anchors": ["internal/function.go:IN", "internal/function_bind.go:bindIn"]}
{"id": "C27", "title": "Conditional functions pick the right operand", "statement": "COALESCE, IFNULL, NULLIF, IF and CASE return exactly the operand SQL prescribes, with a NULL condition counting as not true.", "quantifier": "every operand list", "why_tests_cant": "unbounded operand lists", "anchors": ["internal/function.go:COALESCE", "internal/function.go:IFNULL", "internal/function.go:NULLIF", "internal/function.go:IF", "internal/formatter.go"]}
{"id": "C28", "title": "BETWEEN is two comparisons", "statement": "x BETWEEN a AND b has the same truth value as x >= a AND x <= b, including NULL operands.", "quantifier": "every triple of values", "why_tests_cant": "unbounded value spaces", "anchors": ["internal/function.go:BETWEEN", "internal/function_bind.go:bindBetween"]}
{"id": "C29", "title": "LIKE matches SQL patterns", "statement": "s LIKE p is TRUE iff s matches p where % stands for any string and _ for any one character.", "quantifier": "every string and every pattern", "why_tests_cant": "unbounded strings", "anchors": ["internal/function.go:LIKE"]}
{"id": "C30", "title": "INT64 arithmetic is exact or an error", "statement": "+, -, *, unary minus, DIV and MOD on INT64 return the exact integer result or an error, never a different number; SAFE_ variants return NULL instead of the error.", "quantifier": "every pair of 64-bit integers", "why_tests_cant": "2^128 pairs", "anchors": ["internal/value.go:IntValue.Add", "internal/value.go:IntValue.Sub", "internal/value.go:IntValue.Mul", "internal/function_math.go:DIV", "internal/function_math.go:MOD", "internal/function_math.go:SAFE_ADD"]}
{"id": "C31", "title": "SAFE. prefix turns errors into NULL and nothing else", "statement": "SAFE.f(args) equals f(args) whenever f succeeds and is NULL whenever f returns an error.", "quantifier": "every function and argument list", "why_tests_cant": "all functions and inputs", "anchors": ["internal/function_register.go", "internal/formatter.go:getFuncNameAndArgs"]}
{"id": "C32", "title": "ORDER BY orders consistently", "statement": "The collation used for ORDER BY is a total preorder on the values of a column (antisymmetric, transitive, total), agreeing with <.", "quantifier": "every list of values of one type", "why_tests_cant": "sortedness of arbitrary lists needs transitivity for all triples", "anchors": ["internal/function_register.go:zetasqlite_collate", "internal/value.go"]}
{"id": "C33", "title": "Aggregates ignore row order", "statement": "COUNT, COUNTIF, SUM, AVG, MIN, MAX, BIT_AND, BIT_OR, BIT_XOR, LOGICAL_AND, LOGICAL_OR of a group do not depend on the order rows are visited in.", "quantifier": "every multiset of rows and every ordering of it", "why_tests_cant": "n! orderings of unbounded inputs", "anchors": ["internal/function_aggregate.go"]}
{"id": "C34", "title": "Aggregates compute their mathematical definition over non-NULL inputs", "statement": "COUNT counts the non-NULL inputs, SUM adds them, MIN/MAX give the extreme one, AVG is SUM/COUNT; an input with no non-NULL value gives NULL (0 for COUNT).", "quantifier": "every list of inputs", "why_tests_cant": "unbounded lists", "anchors": ["internal/function_aggregate.go:SUM", "internal/function_aggregate.go:COUNT", "internal/function_aggregate.go:MAX", "internal/function_aggregate.go:MIN", "internal/function_aggregate.go:AVG"]}
{"id": "C35", "title": "Bitwise and logical aggregates compute their definition", "statement": "BIT_AND/BIT_OR/BIT_XOR are the bitwise and/or/xor of the non-NULL inputs; LOGICAL_AND/LOGICAL_OR are their conjunction/disjunction; all are NULL on empty input.", "quantifier": "every list of inputs", "why_tests_cant": "unbounded lists", "anchors": ["internal/function_aggregate.go:BIT_AND_AGG", "internal/function_aggregate.go:BIT_OR_AGG", "internal/function_aggregate.go:BIT_XOR_AGG", "internal/function_aggregate.go:LOGICAL_AND", "internal/function_aggregate.go:LOGICAL_OR"]}
{"id": "C36", "title": "DISTINCT and IGNORE NULLS feed each value once", "statement": "agg(DISTINCT x) equals agg over the distinct values of x (first occurrences, NULL counted as one value), and IGNORE NULLS drops exactly the NULL inputs, keeping the order of the rest.", "quantifier": "every list of inputs", "why_tests_cant": "unbounded lists", "anchors": ["internal/function_bind.go:Aggregator.Step"]}
{"id": "C37", "title": "ARRAY_AGG/STRING_AGG keep, order and limit inputs", "statement": "ARRAY_AGG and STRING_AGG return every input exactly once in arrival order; with ORDER BY a permutation sorted by the keys; with LIMIT n the first n of that; STRING_AGG joins with the delimiter and is NULL when there is no non-NULL input.", "quantifier": "every list of inputs, delimiters, keys and limits", "why_tests_cant": "unbounded lists", "anchors": ["internal/function_aggregate.go:ARRAY_AGG", "internal/function_aggregate.go:STRING_AGG", "internal/function_aggregate.go"]}
{"id": "C38", "title": "User data is never taken for aggregate options", "statement": "The values an aggregate or window function receives are exactly the user's arguments, in order, whatever their contents.", "quantifier": "every argument list", "why_tests_cant": "user strings are arbitrary", "anchors": ["internal/function_aggregate_option.go:parseAggregateOptions", "internal/function_window_option.go:parseWindowOptions"]}
{"id": "C39", "title": "ROW_NUMBER numbers every partition 1..n", "statement": "Within each partition ROW_NUMBER assigns each of 1..n exactly once, in the window order.", "quantifier": "every list of rows, partition keys and order keys", "why_tests_cant": "unbounded lists", "anchors": ["internal/function_window.go:WINDOW_ROW_NUMBER", "internal/function_window_option.go:WindowFuncAggregatedStatus"]}
{"id": "C40", "title": "RANK and DENSE_RANK count smaller rows", "statement": "RANK is 1 + the number of rows with a strictly smaller order key, DENSE_RANK is 1 + the number of distinct smaller keys; peers share a rank.", "quantifier": "every partition and ordering key list", "why_tests_cant": "unbounded lists", "anchors": ["internal/function_window.go:WINDOW_RANK", "internal/function_window.go:WINDOW_DENSE_RANK"]}
{"id": "C41", "title": "NTILE splits a partition evenly", "statement": "NTILE(k) assigns bucket numbers in 1..k, non-decreasing in the window order, with bucket sizes differing by at most one and larger buckets first.", "quantifier": "every partition size and every k", "why_tests_cant": "unbounded sizes", "anchors": ["internal/function_window.go:WINDOW_NTILE"]}
{"id": "C42", "title": "ROWS frames contain exactly the rows between the bounds", "statement": "For ROWS BETWEEN a AND b an aggregate at position i sees exactly the rows of the partition at positions i+a..i+b that exist.", "quantifier": "every partition, position and pair of bounds", "why_tests_cant": "unbounded sizes and offsets", "anchors": ["internal/function_window_option.go:WindowFuncAggregatedStatus.Done"]}
{"id": "C43", "title": "RANGE frames contain exactly the rows within the value bounds", "statement": "For RANGE frames the aggregate sees exactly the rows whose order key lies between the bounds, peers of the current row included.", "quantifier": "every partition, position and pair of bounds", "why_tests_cant": "unbounded sizes and offsets", "anchors": ["internal/function_window_option.go:WindowFuncAggregatedStatus.Done"]}
{"id": "C44", "title": "Navigation functions address rows by position", "statement": "FIRST_VALUE/LAST_VALUE/NTH_VALUE return the first/last/n-th row of the frame and LEAD/LAG the row at the given distance (or the default if there is none).", "quantifier": "every frame, position, offset", "why_tests_cant": "unbounded sizes and offsets", "anchors": ["internal/function_window.go:WINDOW_FIRST_VALUE", "internal/function_window.go:WINDOW_LAST_VALUE", "internal/function_window.go:WINDOW_NTH_VALUE", "internal/function_window.go:WINDOW_LEAD", "internal/function_window.go:WINDOW_LAG"]}
{"id": "C45", "title": "Rows of different partitions never mix", "statement": "Two rows are in the same window partition iff their PARTITION BY values are equal, column by column.", "quantifier": "every pair of partition key tuples", "why_tests_cant": "unbounded strings as keys", "anchors": ["internal/function_window_option.go:WindowFuncAggregatedStatus.Step", "internal/function_window_option.go:WindowFuncStatus.Partition"]}
{"id": "C46", "title": "Day arithmetic on dates is exact and invertible", "statement": "DATE_SUB(DATE_ADD(d, n days), n days) = d; DATE_DIFF(DATE_ADD(d, n days), d, DAY) = n; weeks are seven days; UNIX_DATE and DATE_FROM_UNIX_DATE are inverse.", "quantifier": "every date and every n", "why_tests_cant": "all dates over the whole calendar, leap years, era boundaries", "anchors": ["internal/function_date.go:DATE_ADD", "internal/function_date.go:DATE_SUB", "internal/function_date.go:DATE_DIFF", "internal/function_date.go:UNIX_DATE", "internal/function_date.go:DATE_FROM_UNIX_DATE"]}
{"id": "C47", "title": "Month and year arithmetic clamps to the end of the month", "statement": "Adding months, quarters or years moves the month/year by exactly that amount and keeps the day of month, reduced to the last day of the target month only when that month is shorter.", "quantifier": "every date and every amount, positive or negative", "why_tests_cant": "calendar arithmetic over all years and offsets", "anchors": ["internal/function_date.go:addMonth", "internal/function_date.go:addYear", "internal/function_date.go:DATE_ADD"]}
{"id": "C48", "title": "DATE_TRUNC returns the start of the period", "statement": "DATE_TRUNC(d, part) is the latest start of a part that is not after d; it is idempotent and never later than d.", "quantifier": "every date and every part", "why_tests_cant": "all dates", "anchors": ["internal/function_date.go:DATE_TRUNC"]}
{"id": "C49", "title": "LAST_DAY returns the end of the period", "statement": "LAST_DAY(d, part) is the last date of the period containing d.", "quantifier": "every date and every part", "why_tests_cant": "all dates", "anchors": ["internal/function_date.go:LAST_DAY"]}
{"id": "C50", "title": "DATE_DIFF counts boundaries", "statement": "DATE_DIFF(a, b, part) is the number of part boundaries between b and a, antisymmetric in a and b.", "quantifier": "every pair of dates and every part", "why_tests_cant": "all pairs of dates", "anchors": ["internal/function_date.go:DATE_DIFF"]}
{"id": "C51", "title": "EXTRACT agrees with the calendar", "statement": "EXTRACT of YEAR, QUARTER, MONTH, DAY, DAYOFWEEK, DAYOFYEAR, HOUR.. returns the calendar field, and the date can be rebuilt from YEAR, MONTH and DAY.", "quantifier": "every date", "why_tests_cant": "all dates", "anchors": ["internal/function.go:EXTRACT"]}
{"id": "C52", "title": "Sub-day truncation keeps exactly the higher fields", "statement": "TIMESTAMP_TRUNC, DATETIME_TRUNC and TIME_TRUNC to MILLISECOND, SECOND, MINUTE, HOUR zero exactly the fields below the part.", "quantifier": "every instant and part", "why_tests_cant": "all instants", "anchors": ["internal/function_timestamp.go:TIMESTAMP_TRUNC", "internal/function_datetime.go:DATETIME_TRUNC", "internal/function_time.go:TIME_TRUNC"]}
{"id": "C53", "title": "Unix conversions are inverse", "statement": "UNIX_SECONDS/MILLIS/MICROS undo TIMESTAMP_SECONDS/MILLIS/MICROS, and truncate toward the past otherwise.", "quantifier": "every 64-bit argument", "why_tests_cant": "2^64 values", "anchors": ["internal/function_timestamp.go:UNIX_SECONDS", "internal/function_timestamp.go:TIMESTAMP_SECONDS", "internal/function_timestamp.go:TIMESTAMP_MILLIS", "internal/function_timestamp.go:TIMESTAMP_MICROS"]}
{"id": "C54", "title": "Parsing what was formatted gives the value back", "statement": "PARSE_DATE(f, FORMAT_DATE(f, d)) = d for formats that determine the date (such as %Y-%m-%d, %F), and parsing rejects text that does not match the format.", "quantifier": "every date and every input text", "why_tests_cant": "all dates and all strings", "anchors": ["internal/function_time_parser.go:parseTimeFormat", "internal/function_time_parser.go:formatTime"]}
{"id": "C55", "title": "Fixed UTC offsets denote the offset they spell", "statement": "A time zone written as +HH:MM or -HH:MM is that offset from UTC.", "quantifier": "every sign, hour and minute", "why_tests_cant": "finite but large table; sign/minute interaction is easily missed by samples", "anchors": ["internal/util.go:toLocation"]}
{"id": "C56", "title": "Interval justification preserves the interval", "statement": "JUSTIFY_DAYS, JUSTIFY_HOURS and JUSTIFY_INTERVAL do not change the total (30-day months, 24-hour days) and leave fields in range.", "quantifier": "every interval", "why_tests_cant": "unbounded fields, signs", "anchors": ["internal/function_interval.go:JUSTIFY_DAYS", "internal/function_interval.go:JUSTIFY_HOURS", "internal/function_interval.go:JUSTIFY_INTERVAL"]}
{"id": "C57", "title": "SUBSTR selects characters by position", "statement": "SUBSTR(s, p, n) is the n characters of s starting at position p (counting from the end for negative p); concatenating SUBSTR(s,1,k) and SUBSTR(s,k+1) gives s back.", "quantifier": "every string (any Unicode), position and length", "why_tests_cant": "unbounded strings and integers", "anchors": ["internal/function_string.go:SUBSTR"]}
{"id": "C58", "title": "LEFT/RIGHT/LPAD/RPAD/REPEAT/REVERSE have the documented length and content", "statement": "LEFT(s,n) is the first n characters, RIGHT the last n; LPAD/RPAD give exactly n characters ending/starting with s (or its first n); REPEAT(s,n) is n copies; REVERSE twice is the identity.", "quantifier": "every string and length", "why_tests_cant": "unbounded strings and integers", "anchors": ["internal/function_string.go:LEFT", "internal/function_string.go:RIGHT", "internal/function_string.go:LPAD", "internal/function_string.go:RPAD", "internal/function_string.go:REPEAT", "internal/function_string.go:REVERSE"]}
{"id": "C59", "title": "TRIM removes exactly the outer characters of the set", "statement": "TRIM/LTRIM/RTRIM remove the longest prefix/suffix consisting of the given characters and nothing else.", "quantifier": "every string and cut set", "why_tests_cant": "unbounded strings", "anchors": ["internal/function_string.go:TRIM", "internal/function_string.go:LTRIM", "internal/function_string.go:RTRIM"]}
{"id": "C60", "title": "SPLIT and ARRAY_TO_STRING are inverse", "statement": "ARRAY_TO_STRING(SPLIT(s, d), d) = s, and no piece contains the delimiter.", "quantifier": "every string and non-empty delimiter", "why_tests_cant": "unbounded strings", "anchors": ["internal/function_string.go:SPLIT", "internal/function_array.go:ARRAY_TO_STRING"]}
{"id": "C61", "title": "Text encodings round-trip", "statement": "FROM_HEX(TO_HEX(b)) = b, FROM_BASE64(TO_BASE64(b)) = b, FROM_BASE32(TO_BASE32(b)) = b, and CODE_POINTS_TO_STRING(TO_CODE_POINTS(s)) = s.", "quantifier": "every byte string / every string", "why_tests_cant": "unbounded strings", "anchors": ["internal/function_string.go:FROM_HEX", "internal/function_string.go:TO_HEX", "internal/function_string.go:FROM_BASE64", "internal/function_string.go:FROM_BASE32", "internal/function_string.go:CODE_POINTS_TO_STRING", "internal/function_string.go:TO_CODE_POINTS"]}
{"id": "C62", "title": "TRANSLATE maps each character once", "statement": "TRANSLATE(s, from, to) replaces each character of s occurring in from by the corresponding character of to (deleting it if there is none), independently of the others.", "quantifier": "every string and character maps", "why_tests_cant": "unbounded strings", "anchors": ["internal/function_string.go:TRANSLATE"]}
{"id": "C63", "title": "STRPOS/INSTR find the first occurrence", "statement": "STRPOS(s,t) (and INSTR(s,t)) is the 1-based character position of the first occurrence of t in s, or 0 if there is none.", "quantifier": "every pair of strings", "why_tests_cant": "unbounded strings", "anchors": ["internal/function_string.go:STRPOS", "internal/function_string.go:INSTR", "internal/function_bind.go:bindInstr"]}
{"id": "C64", "title": "Array subscripts are bounds-checked", "statement": "arr[OFFSET(i)] / arr[ORDINAL(i)] give the i-th element counted from 0/1 when it exists and an error otherwise; the SAFE_ forms give NULL instead and never an error.", "quantifier": "every array and index", "why_tests_cant": "unbounded arrays and integers", "anchors": ["internal/function.go:ARRAY_OFFSET", "internal/function.go:ARRAY_ORDINAL", "internal/function.go:ARRAY_SAFE_OFFSET", "internal/function.go:ARRAY_SAFE_ORDINAL"]}
{"id": "C65", "title": "GENERATE_ARRAY terminates with the arithmetic progression", "statement": "GENERATE_ARRAY(a, b, s) terminates for every non-zero step and returns exactly a, a+s, a+2s, ... up to b.", "quantifier": "every triple of INT64", "why_tests_cant": "2^192 triples, termination", "anchors": ["internal/function_array.go:GENERATE_ARRAY"]}
{"id": "C66", "title": "Array functions preserve elements", "statement": "ARRAY_CONCAT concatenates, ARRAY_REVERSE reverses (an involution), ARRAY_LENGTH counts, NULL elements included.", "quantifier": "every list of arrays", "why_tests_cant": "unbounded arrays", "anchors": ["internal/function_array.go:ARRAY_CONCAT", "internal/function_array.go:ARRAY_REVERSE", "internal/function_array.go:ARRAY_LENGTH"]}
{"id": "C67", "title": "RANGE_BUCKET counts boundaries", "statement": "For a sorted boundary array, RANGE_BUCKET(x, a) is the number of boundaries <= x.", "quantifier": "every sorted array and point", "why_tests_cant": "unbounded arrays", "anchors": ["internal/function_math.go:RANGE_BUCKET"]}
{"id": "C68", "title": "IP address functions round-trip and mask", "statement": "NET.IPV4_FROM_INT64 and NET.IPV4_TO_INT64 are inverse on 32-bit addresses; NET.IP_NET_MASK(n,k) has exactly the first k bits set; NET.IP_TRUNC keeps the first k bits and clears the rest, and is idempotent; NET.IP_FROM_STRING reads the text NET.IP_TO_STRING writes for an IPv4 address, and no other text, as that address.", "quantifier": "every address and prefix length", "why_tests_cant": "2^128 addresses", "anchors": ["internal/function_net.go"]}
{"id": "C69", "title": "Bit shifts and BIT_COUNT", "statement": "x << n and x >> n agree with multiplication/division by 2^n on 64-bit patterns for every n >= 0 (0 once n >= 64), a negative n is an error, and BIT_COUNT counts the one bits.", "quantifier": "every 64-bit pattern and shift", "why_tests_cant": "2^64 patterns", "anchors": ["internal/function.go:BIT_LEFT_SHIFT", "internal/function.go:BIT_RIGHT_SHIFT", "internal/function_bit.go:BIT_COUNT"]}
{"id": "C70", "title": "NUMERIC arithmetic is exact and pure", "statement": "+, -, *, / on NUMERIC give the exact rational result and do not modify their operands.", "quantifier": "every pair of numerics and every expression", "why_tests_cant": "unbounded expressions; aliasing", "anchors": ["internal/value.go:NumericValue"]}
{"id": "C71", "title": "FORMAT consumes one argument per directive", "statement": "FORMAT copies literal text unchanged, turns %% into %, consumes exactly one argument per other directive in order (plus one per *), and is an error when there are too few or too many arguments.", "quantifier": "every format string and argument list", "why_tests_cant": "unbounded strings", "anchors": ["internal/function_format.go"]}
{"id": "C72", "title": "Thousands separators group digits by three", "statement": "FORMAT(\"%'d\", n) is the decimal text of n with a comma before every group of three digits from the right.", "quantifier": "every integer", "why_tests_cant": "2^64 integers", "anchors": ["internal/function_format.go"]}
{"id": "C73", "title": "Wildcard tables select by prefix", "statement": "FROM `prefix*` reads exactly the tables whose full name starts with the prefix; _TABLE_SUFFIX is the rest of the name; a column missing from a table is NULL.", "quantifier": "every catalog and prefix", "why_tests_cant": "unbounded catalogs", "anchors": ["internal/wildcard_table.go"]}
{"id": "C74", "title": "SQL UDF calls substitute arguments hygienically", "statement": "Calling a SQL function replaces each parameter by its argument and nothing else, whatever the parameter names and argument texts.", "quantifier": "every parameter list and argument list", "why_tests_cant": "unbounded strings", "anchors": ["internal/spec.go:FunctionSpec.CallSQL"]}
{"id": "C75", "title": "Column types survive the catalog", "statement": "A column type written to the persistent catalog and read back (and reported by ColumnTypeDatabaseTypeName) is the same type, for arbitrarily nested ARRAY and STRUCT.", "quantifier": "every type", "why_tests_cant": "unbounded nesting", "anchors": ["internal/spec.go:Type", "internal/spec.go:newType", "internal/spec.go:Type.ToZetaSQLType"]}
{"id": "C76", "title": "The fixed current time is used everywhere", "statement": "With WithCurrentTime(ctx, t), CURRENT_DATE/TIME/DATETIME/TIMESTAMP in the query, with or without a time zone argument, evaluate to t.", "quantifier": "every time and zone", "why_tests_cant": "all instants", "anchors": ["internal/context.go:WithCurrentTime", "internal/formatter.go:getFuncNameAndArgs", "internal/function_bind.go:bindCurrentDate"]}
{"id": "C77", "title": "Integer results are never silently narrowed", "statement": "Scanning an INT64 result gives the stored integer; NULL scans to the zero value.", "quantifier": "every integer and destination", "why_tests_cant": "2^64 integers", "anchors": ["internal/rows.go:Rows.assignValue"]}
{"id": "C78", "title": "Temporary objects never destroy permanent ones", "statement": "CREATE TEMP TABLE/VIEW/FUNCTION leaves every permanent object of that name as it was, whether the statement succeeds or fails; a failing plain CREATE changes nothing.", "quantifier": "every reachable database and every create statement", "why_tests_cant": "depends on the history of the database", "anchors": ["internal/stmt_action.go:CreateTableStmtAction.Cleanup", "internal/stmt_action.go:CreateFunctionStmtAction.Cleanup"]}
{"id": "C79", "title": "DROP IF EXISTS of a missing object is a no-op", "statement": "DROP TABLE/VIEW IF EXISTS of a name that does not exist succeeds and changes nothing; of an existing one removes exactly it.", "quantifier": "every database and name", "why_tests_cant": "unbounded histories", "anchors": ["internal/stmt_action.go:DropStmtAction.exec"]}
{"id": "C80", "title": "Preparing a statement has no effect", "statement": "db.Prepare(sql) changes neither the catalog nor the stored tables.", "quantifier": "every database and statement", "why_tests_cant": "unbounded histories", "anchors": ["internal/stmt_action.go:CreateTableStmtAction.Prepare", "driver.go:ZetaSQLiteConn.PrepareContext"]}
{"id": "C81", "title": "A call leaves exactly the permanent objects created before its first failure", "statement": "After db.Exec(script) the catalog, SQLite and the persistent catalog contain the old objects plus the permanent objects the script created before its first failing statement; every temporary object is gone; an error is returned iff a statement failed.", "quantifier": "every script (any mix of temporary and permanent creates, failures anywhere) and every consistent database", "why_tests_cant": "unbounded scripts with a failure at any point", "anchors": ["driver.go:ZetaSQLiteConn.ExecContext", "internal/stmt_action.go"]}
{"id": "C82", "title": "The change record of a call is what the call left behind", "statement": "ChangedCatalog of a call reports as added exactly the permanent objects that the call created and that still exist after it.", "quantifier": "every script and database", "why_tests_cant": "unbounded scripts with a failure at any point", "anchors": ["internal/conn.go", "internal/stmt_action.go:CreateFunctionStmtAction.exec"]}
{"id": "C83", "title": "Sub-day arithmetic is exact and invertible", "statement": "TIMESTAMP_ADD, DATETIME_ADD and TIME_ADD of hours, minutes, seconds, milliseconds or microseconds move the value by exactly that duration; the _SUB functions undo it; the _DIFF functions return the amount (whole units toward zero).", "quantifier": "every instant, unit and amount whose result is in range", "why_tests_cant": "2^64 amounts over 10000 years", "anchors": ["internal/function_timestamp.go:TIMESTAMP_ADD", "internal/function_datetime.go:DATETIME_ADD", "internal/function_time.go:TIME_ADD", "internal/function_timestamp.go:TIMESTAMP_DIFF"]}
{"id": "C84", "title": "INTERVAL keeps its amount", "statement": "INTERVAL n PART (and MAKE_INTERVAL) is an interval whose PART reads back as n with EXTRACT and whose other parts are 0.", "quantifier": "every INT64 amount and part", "why_tests_cant": "2^64 amounts", "anchors": ["internal/function_interval.go:INTERVAL", "internal/function_interval.go:MAKE_INTERVAL", "internal/function.go:EXTRACT"]}
{"id": "C85", "title": "Adding an INTERVAL to a date or time", "statement": "value + interval and value - interval move a DATE, DATETIME or TIMESTAMP by exactly the days and time of the interval; months and years keep the day of the month, or take the last day of a shorter month, as DATE_ADD does.", "quantifier": "every value and interval", "why_tests_cant": "unbounded calendar and interval fields", "anchors": ["internal/value.go:DateValue.Add", "internal/value.go:DateValue.Sub", "internal/value.go:DatetimeValue.Add", "internal/value.go:TimestampValue.Add"]}
{"id": "C86", "title": "The difference of two dates counts the days", "statement": "d1 - d2 on DATE is the interval of the number of days between them, and d2 + (d1 - d2) = d1.", "quantifier": "every pair of dates", "why_tests_cant": "about 10^13 pairs of dates", "anchors": ["internal/value.go:DateValue.Sub"]}
{"id": "C87", "title": "REPLACE replaces from left to right", "statement": "REPLACE(s, from, to) is s with every occurrence of from, taken from left to right without overlap, replaced by to, for STRING and BYTES; with an empty from it is s.", "quantifier": "every string or byte string and every from and to", "why_tests_cant": "unbounded strings", "anchors": ["internal/function_string.go:REPLACE"]}
{"id": "C88", "title": "Generated date and timestamp arrays", "statement": "GENERATE_DATE_ARRAY(a, b, INTERVAL s part) and GENERATE_TIMESTAMP_ARRAY(a, b, INTERVAL s part) return a, a + s part, a + 2s part, ... as long as the value is not beyond b, each moved from a by the calendar; NULL for a NULL bound.", "quantifier": "every pair of dates or timestamps, step and part", "why_tests_cant": "unbounded calendar and steps", "anchors": ["internal/function_array.go:GENERATE_DATE_ARRAY", "internal/function_array.go:GENERATE_TIMESTAMP_ARRAY", "internal/value.go:DateValue.AddDateWithInterval", "internal/value.go:TimestampValue.AddValueWithPart"]}
{"id": "C89", "title": "GREATEST and LEAST are the extremes", "statement": "GREATEST(v1, ..., vn) is one of its arguments and none is greater, LEAST is one and none is less; the result is NULL as soon as one argument is NULL, and depends neither on order nor on repetition.", "quantifier": "every non-empty list of values of one type", "why_tests_cant": "unbounded argument lists", "anchors": ["internal/function_math.go:GREATEST", "internal/function_math.go:LEAST"]}
{"id": "C90", "title": "Bitwise operators act on every bit", "statement": "x & y, x | y, x ^ y and ~x on INT64 are the INT64 whose every bit is the AND, OR, exclusive OR or complement of the operands' bits; a NULL operand gives NULL.", "quantifier": "every pair of INT64 values", "why_tests_cant": "2^128 pairs", "anchors": ["internal/function.go:BIT_AND", "internal/function.go:BIT_OR", "internal/function.go:BIT_XOR", "internal/function.go:BIT_NOT"]}
{"id": "C91", "title": "Set operations see duplicates exactly where there are some", "statement": "UNION DISTINCT, INTERSECT DISTINCT and EXCEPT DISTINCT, which compare the stored forms of values, treat two values of one type as the same exactly when they are the same SQL value (NULL like NULL), at any nesting depth.", "quantifier": "every pair of values of one type", "why_tests_cant": "unbounded nested values", "anchors": ["internal/encoder.go:EncodeValue", "internal/formatter.go:SetOperationScanNode.FormatSQL"]}
{"id": "C92", "title": "Truncation to days and longer gives the start of the period", "statement": "TIMESTAMP_TRUNC(t, part, zone) and DATETIME_TRUNC(t, part) for DAY, WEEK, ISOWEEK, MONTH, QUARTER, YEAR and ISOYEAR give midnight, in the zone, of the first day of the period that contains t.", "quantifier": "every instant, part and fixed-offset zone", "why_tests_cant": "all instants", "anchors": ["internal/function_timestamp.go:TIMESTAMP_TRUNC", "internal/function_datetime.go:DATETIME_TRUNC", "internal/function_date.go:DATE_TRUNC"]}
{"id": "C93", "title": "ARRAY_TO_STRING and NULL elements", "statement": "ARRAY_TO_STRING(array, delimiter) joins the non-NULL elements in order; with a third argument every NULL element is replaced by it.", "quantifier": "every array of STRING with NULLs, delimiter and text", "why_tests_cant": "unbounded arrays", "anchors": ["internal/function_array.go:ARRAY_TO_STRING"]}
{"id": "C94", "title": "CAST to STRING and back is the identity", "statement": "CAST(CAST(x AS STRING) AS T) = x for every x of type T among INT64, BOOL, STRING, NUMERIC, BIGNUMERIC, DATE, DATETIME, TIME and TIMESTAMP.", "quantifier": "every value of the types", "why_tests_cant": "unbounded values", "anchors": ["internal/encoder.go:CastValue", "internal/function.go:CAST", "internal/value.go:StringValue.ToTime", "internal/value.go:NumericValue.toString"]}
{"id": "C95", "title": "STRING and BYTES are converted as UTF-8", "statement": "CAST of a STRING to BYTES is its UTF-8 form, and CAST of BYTES that are valid UTF-8 to STRING is the text they encode.", "quantifier": "every text", "why_tests_cant": "unbounded texts", "anchors": ["internal/encoder.go:CastValue", "internal/value.go:BytesValue.ToString", "internal/value.go:StringValue.ToBytes"]}
{"id": "C96", "title": "CAST of text to INT64 accepts exactly the integers", "statement": "CAST(s AS INT64) is i exactly when s is a decimal or hexadecimal (0x) numeral for i, perhaps with a sign, and i is in range; every other text is an error.", "quantifier": "every text", "why_tests_cant": "unbounded texts", "anchors": ["internal/value.go:StringValue.ToInt64"]}
{"id": "C97", "title": "CAST of NUMERIC to INT64 rounds", "statement": "CAST of a NUMERIC or BIGNUMERIC to INT64 is the nearest integer, halves away from zero, and an error when that is out of range.", "quantifier": "every number", "why_tests_cant": "unbounded numbers", "anchors": ["internal/value.go:NumericValue.ToInt64"]}
{"id": "C98", "title": "The text of a NUMERIC is its decimal form", "statement": "CAST of a NUMERIC (BIGNUMERIC) to STRING is the decimal text of the number rounded to 9 (38) digits after the point, halves away from zero, without superfluous zeros or a final point.", "quantifier": "every rational number", "why_tests_cant": "unbounded numbers", "anchors": ["internal/value.go:NumericValue.toString"]}
{"id": "C99", "title": "SAFE_CAST is CAST with errors replaced by NULL", "statement": "SAFE_CAST(x AS T) is CAST(x AS T) when that succeeds and NULL when that is an error; it is never an error.", "quantifier": "every value and pair of types", "why_tests_cant": "unbounded values and types", "anchors": ["internal/function.go:CAST"]}
{"id": "C100", "title": "INT64 and BOOL are converted as in SQL", "statement": "CAST of an INT64 to BOOL is FALSE for 0 and TRUE otherwise; CAST of a BOOL to INT64 is 0 or 1.", "quantifier": "every INT64", "why_tests_cant": "2^64 values", "anchors": ["internal/value.go:IntValue.ToBool", "internal/value.go:BoolValue.ToInt64"]}
{"id": "C101", "title": "CAST keeps NULL and works on arrays element by element", "statement": "CAST of NULL is NULL for every type; CAST of an array succeeds exactly when every element can be cast and then has the cast elements in order.", "quantifier": "every array and pair of element types", "why_tests_cant": "unbounded arrays", "anchors": ["internal/encoder.go:CastValue"]}
{"id": "C102", "title": "CAST between struct types works by position", "statement": "CAST of a struct casts its fields by position, and the result has the field names of the target type.", "quantifier": "every struct and pair of struct types with as many fields", "why_tests_cant": "unbounded structs", "anchors": ["internal/encoder.go:CastValue"]}
{"id": "C103", "title": "Conversions between DATE, DATETIME, TIME and TIMESTAMP", "statement": "CAST from DATE, DATETIME or TIMESTAMP to DATE gives the day, to TIME the time of day, to DATETIME or TIMESTAMP the same moment (in UTC).", "quantifier": "every moment of the years 1 to 9999", "why_tests_cant": "all instants", "anchors": ["internal/encoder.go:CastValue", "internal/encoder.go:EncodeValue"]}
{"id": "C104", "title": "CAST of text to BOOL accepts true and false only", "statement": "CAST(s AS BOOL) is TRUE for true and FALSE for false, in any case of the letters, and an error for every other text.", "quantifier": "every text", "why_tests_cant": "unbounded texts", "anchors": ["internal/value.go:StringValue.ToBool"]}
{"id": "C105", "title": "CAST of text to NUMERIC accepts numbers only", "statement": "CAST(s AS NUMERIC) is the number the decimal text s denotes; a text that denotes no number is an error.", "quantifier": "every text", "why_tests_cant": "unbounded texts", "anchors": ["internal/value.go:StringValue.ToRat"]}
{"id": "C106", "title": "CAST of text to DATE accepts days only", "statement": "CAST(s AS DATE) is the day that s denotes as YYYY-MM-DD; a text that denotes no existing day is an error.", "quantifier": "every text", "why_tests_cant": "unbounded texts", "anchors": ["internal/value.go:StringValue.ToTime", "internal/value.go:parseDate"]}
{"id": "C107", "title": "Results of scalar types determine the values", "statement": "Two different values of the same scalar type (INT64, BOOL, STRING, BYTES, NUMERIC, BIGNUMERIC, DATE, DATETIME, TIME, TIMESTAMP) are read from a result as different Go values, and neither is nil.", "quantifier": "every pair of values of a scalar type", "why_tests_cant": "unbounded values", "anchors": ["internal/rows.go:Rows.assignValue", "internal/encoder.go:EncodeValue", "internal/decoder.go:DecodeValue"]}
{"id": "C108", "title": "Arrays are returned element by element", "statement": "A result column of type ARRAY<T> is the list of the Go values that columns of type T with the elements would give, nil for NULL elements.", "quantifier": "every array", "why_tests_cant": "unbounded arrays", "anchors": ["internal/rows.go:assignInterfaceValue", "internal/encoder.go:EncodeValue"]}
{"id": "C109", "title": "Structs are returned field by field", "statement": "A result column of type STRUCT has, under the field names, the Go values that columns of the field types would give.", "quantifier": "every struct", "why_tests_cant": "unbounded structs", "anchors": ["internal/rows.go:assignInterfaceValue", "internal/value.go:StructValue.Interface"]}
{"id": "C110", "title": "Literals denote their moments", "statement": "A literal of type DATE, DATETIME, TIME or TIMESTAMP is the day, the moment or the time of day that is written, to the microsecond.", "quantifier": "every literal", "why_tests_cant": "all instants", "anchors": ["internal/encoder.go:ValueFromZetaSQLValue", "internal/encoder.go:datetimeValueFromLiteral", "internal/encoder.go:timeValueFromLiteral"]}
{"id": "C111", "title": "Parameters have the values of the Go arguments", "statement": "A query parameter has the value that the Go argument denotes: numbers, texts, truth values, bytes, times, slices, structs and pointers to them; nil and nil pointers are NULL; an unsigned number that is no INT64 is an error.", "quantifier": "every Go argument", "why_tests_cant": "unbounded nested arguments", "anchors": ["internal/encoder.go:EncodeGoValue", "internal/encoder.go:ValueFromGoValue"]}
{"id": "C112", "title": "One current time per query", "statement": "All calls of CURRENT_DATE, CURRENT_DATETIME, CURRENT_TIME and CURRENT_TIMESTAMP in one query denote one moment.", "quantifier": "every query and every course of the clock", "why_tests_cant": "depends on the clock during the query", "anchors": ["internal/function_bind.go:bindCurrentTimestamp", "internal/function_date.go:CURRENT_DATE", "internal/context.go:CurrentTime"]}
{"id": "C113", "title": "FORMAT pads to the width", "statement": "FORMAT(\"%5d\", n) and FORMAT(\"%5s\", s) are the decimal text of n and the text s, padded on the left with spaces to the width in the directive, whatever the width.", "quantifier": "every number, text and width", "why_tests_cant": "unbounded", "anchors": ["internal/function_format.go:FormatWidth.format", "internal/function_format.go:parseInteger", "internal/function_format.go:parseString"]}
{"id": "C114", "title": "FORMAT signs numbers", "statement": "FORMAT(\"%+d\", n) has a sign for every n; FORMAT(\"% d\", n) has a space in the place of the plus sign.", "quantifier": "every INT64", "why_tests_cant": "all numbers", "anchors": ["internal/function_format.go:parseInteger"]}
{"id": "C115", "title": "Formats compose", "statement": "FORMAT_DATE, FORMAT_DATETIME, FORMAT_TIME and FORMAT_TIMESTAMP give, for a format of several elements and plain characters, the texts of these one after the other.", "quantifier": "every value and every format", "why_tests_cant": "unbounded formats", "anchors": ["internal/function_time_parser.go:formatTime", "internal/function_time_parser.go:combinationPatternInfo"]}
{"id": "C116", "title": "Format elements of the clock", "statement": "The format elements %H %I %k %l %M %S %R %T %X %p %P show the hour of the 24-hour and of the 12-hour clock, the minute, the second and the half of the day, in two characters each.", "quantifier": "every value and every clock element", "why_tests_cant": "all instants", "anchors": ["internal/function_time_parser.go:hour12Formatter", "internal/function_time_parser.go:hour12SpacePrecedingSingleDigitFormatter", "internal/function_time_parser.go:formatTime"]}
{"id": "C117", "title": "Format elements of the calendar", "statement": "The format elements %C %y %Y %m %d %e %D %x %F %j %Q %V %u %w show the century, year, month, day, day of the year, quarter, week and weekday, each in its fixed width.", "quantifier": "every date of the years 1 to 9999", "why_tests_cant": "all dates", "anchors": ["internal/function_time_parser.go:dayFormatter", "internal/function_time_parser.go:dayOfYearFormatter", "internal/function_time_parser.go:quarterFormatter", "internal/function_time_parser.go:weekNumberFormatter"]}
{"id": "C118", "title": "Fractions of a second survive formatting and parsing", "statement": "A DATETIME, TIME or TIMESTAMP of whole microseconds is given back by parsing the text made by a format with the date, hour and minute and with %E6S or %E*S at its end.", "quantifier": "every value and every such format", "why_tests_cant": "all instants", "anchors": ["internal/function_time_parser.go:timePrecisionParser", "internal/function_time_parser.go:timePrecisionFormatter"]}
{"id": "C119", "title": "Parsing the 12-hour clock", "statement": "PARSE_TIME(\"%I:%M:%S %p\", text) is the time written on a 12-hour clock with AM or PM in any case.", "quantifier": "every hour 1 to 12, minute and second", "why_tests_cant": "all combinations", "anchors": ["internal/function_time_parser.go:ampmPostProcessor", "internal/function_time_parser.go:hour12Parser"]}
{"id": "C120", "title": "MERGE does what its clauses say", "statement": "MERGE treats every row of the target by the first WHEN clause that applies to it (MATCHED with its source row, or NOT MATCHED BY SOURCE) and whose AND condition holds, inserts the new rows for the source rows without a target row, and leaves the source as it is.", "quantifier": "every source, target and list of clauses", "why_tests_cant": "unbounded tables; SQLite may pick any of several rows", "anchors": ["internal/analyzer.go:newMergeStmtAction", "internal/stmt_action.go:MergeStmtAction"]}
{"id": "C121", "title": "A MERGE that fails has no effect", "statement": "A MERGE that returns an error has changed nothing, and later MERGE statements work as before.", "quantifier": "every failure and every history after it", "why_tests_cant": "every place of failure", "anchors": ["internal/stmt_action.go:MergeStmtAction.exec", "internal/analyzer.go:newMergeStmtAction"]}
{"id": "C122", "title": "BEGIN and COMMIT in a script make a transaction", "statement": "When a statement between BEGIN and COMMIT fails, the changes since BEGIN are taken back; when none fails, the script does what its statements do.", "quantifier": "every script and every place of failure", "why_tests_cant": "unbounded scripts, every failure", "anchors": ["internal/stmt_action.go:BeginStmtAction", "internal/stmt_action.go:CommitStmtAction", "driver.go:ExecContext"]}
{"id": "C123", "title": "Prepared statements behave like direct ones", "statement": "Running a prepared statement with given arguments has the effect and result of running its text with these arguments.", "quantifier": "every kind of statement, method and list of arguments", "why_tests_cant": "unbounded arguments and scripts", "anchors": ["internal/stmt.go", "driver.go:PrepareContext", "internal/stmt_action.go:Prepare"]}
{"id": "C124", "title": "Preparing has no effect", "statement": "Preparing a statement changes no table.", "quantifier": "every script and every database", "why_tests_cant": "unbounded scripts", "anchors": ["internal/stmt_action.go:CreateTableStmtAction.Prepare", "internal/stmt_action.go:CreateViewStmtAction.Prepare", "driver.go:PrepareContext"]}
{"id": "C125", "title": "FORMAT in other bases", "statement": "FORMAT with %x, %X and %o writes the hexadecimal (lower or upper case) or octal numeral of a number without leading zeros, and is an error for negative numbers.", "quantifier": "every INT64", "why_tests_cant": "all numbers", "anchors": ["internal/function_format.go"]}
{"id": "C126", "title": "CAST of text with a zone to TIMESTAMP", "statement": "CAST of a text of date, T or space, clock and zone (Z, +hh:mm, -hh:mm, +hh, -hh) to TIMESTAMP is the instant the text names.", "quantifier": "every date, clock reading and offset", "why_tests_cant": "all combinations", "anchors": ["internal/value.go:parseTimestamp"]}
{"id": "C127", "title": "%Ez gives timestamps back", "statement": "PARSE_TIMESTAMP gives back what FORMAT_TIMESTAMP wrote in any zone by a format with date, hour, minute and second and with %Ez at its end.", "quantifier": "every timestamp of whole seconds, zone and such format", "why_tests_cant": "all instants and offsets", "anchors": ["internal/function_time_parser.go:timeZoneRFC3339Parser", "internal/function_timestamp.go:FORMAT_TIMESTAMP"]}
{"id": "C128", "title": "Unix seconds in formats", "statement": "FORMAT_TIMESTAMP(\"%s\", t, zone) is the number of seconds since 1970-01-01 00:00:00 UTC in every zone, and PARSE_TIMESTAMP(\"%s\", …) gives t back.", "quantifier": "every timestamp of whole seconds and every zone", "why_tests_cant": "all instants", "anchors": ["internal/function_time_parser.go:unixtimeSecondsParser", "internal/function_time_parser.go:unixtimeSecondsFormatter"]}
{"id": "C129", "title": "Names of weekdays and months", "statement": "%A and %a in FORMAT_DATE name the day of the week, %B, %b and %h the month, in full and in three letters.", "quantifier": "every date", "why_tests_cant": "all dates", "anchors": ["internal/function_time_parser.go:weekOfDayFormatter", "internal/function_time_parser.go:monthFormatter"]}
{"id": "C130", "title": "Years of two digits", "statement": "PARSE_DATE reads %y as the year from 1969 to 2068 with these last digits.", "quantifier": "every date of these years", "why_tests_cant": "all dates", "anchors": ["internal/function_time_parser.go:yearWithoutCenturyParser"]}
{"id": "C131", "title": "Days of the year", "statement": "PARSE_DATE reads %Y-%j as the day of the year with this number; the number 366 in a year of 365 days is an error.", "quantifier": "every year 1000 to 9999 and every number 1 to 366", "why_tests_cant": "all combinations", "anchors": ["internal/function_time_parser.go:dayOfYearParser"]}
{"id": "C132", "title": "Text that goes on after the format is an error", "statement": "PARSE_DATE, PARSE_DATETIME, PARSE_TIME and PARSE_TIMESTAMP return an error for a text that matches the format and goes on with further characters other than spaces.", "quantifier": "every format, value and further text", "why_tests_cant": "unbounded formats and texts", "anchors": ["internal/function_time_parser.go:parseTimeFormat"]}
{"id": "C133", "title": "Format elements of other types are errors", "statement": "Elements of the clock in the format of a DATE, of the calendar in that of a TIME and of the zone in that of anything but a TIMESTAMP are errors.", "quantifier": "every format and value", "why_tests_cant": "unbounded formats", "anchors": ["internal/function_time_parser.go:formatPatternMap", "internal/function_time_parser.go:formatTime"]}
{"id": "C134", "title": "Queries are translated faithfully", "statement": "The rows of a query, on every database, are those the SQL says: tables, joins, WHERE, computed columns, GROUP BY, ORDER BY, LIMIT, set operations, WITH, UNNEST and subqueries in expressions, nested in any way.", "quantifier": "every query, database and meaning of functions and literals", "why_tests_cant": "queries are nested without bound; databases are unbounded", "anchors": ["internal/formatter.go:FormatSQL", "internal/formatter.go:formatInput", "internal/formatter.go:QueryStmtNode", "internal/formatter.go:ProjectScanNode"]}
{"id": "C135", "title": "WHERE on a subquery", "statement": "SELECT … FROM (subquery) WHERE … yields the rows of the subquery for which the condition is true, whatever clauses the subquery has.", "quantifier": "every subquery, condition and database", "why_tests_cant": "unbounded nesting", "anchors": ["internal/formatter.go:FilterScanNode", "internal/formatter.go:removeExpressions"]}
{"id": "C136", "title": "Joins are translated faithfully", "statement": "A join of two inputs, which may be joins themselves, yields the rows SQL says for its kind and condition.", "quantifier": "every kind, inputs, condition and database", "why_tests_cant": "unbounded nesting", "anchors": ["internal/formatter.go:JoinScanNode"]}
{"id": "C137", "title": "LEFT JOIN UNNEST keeps all rows", "statement": "A join with UNNEST of an array yields a row for each element of the array of each row; a LEFT JOIN also keeps the rows whose array is empty or NULL.", "quantifier": "every input, array expression, condition and database", "why_tests_cant": "unbounded arrays and tables", "anchors": ["internal/formatter.go:ArrayScanNode"]}
{"id": "C138", "title": "HAVING", "statement": "HAVING keeps the groups for which its condition is true, with and without GROUP BY.", "quantifier": "every grouped query, condition and database", "why_tests_cant": "unbounded nesting and tables", "anchors": ["internal/formatter.go:FilterScanNode", "internal/formatter.go:AggregateScanNode"]}
{"id": "C139", "title": "Set operations are translated faithfully", "statement": "UNION ALL, UNION DISTINCT, INTERSECT and EXCEPT (ALL and DISTINCT) of any number of queries yield the rows SQL says.", "quantifier": "every operation, queries and database", "why_tests_cant": "unbounded nesting and tables", "anchors": ["internal/formatter.go:SetOperationScanNode"]}
{"id": "C140", "title": "WITH", "statement": "A query may use each WITH query by its name, any number of times, and yields what it would with the WITH query written in its place.", "quantifier": "every list of WITH queries, query and database", "why_tests_cant": "unbounded nesting and tables", "anchors": ["internal/formatter.go:WithScanNode", "internal/formatter.go:WithRefScanNode"]}
{"id": "C141", "title": "Scalar subqueries", "statement": "A subquery used as a value is the value of its only row, NULL if it has no row, and an error if it has more than one.", "quantifier": "every subquery and database", "why_tests_cant": "unbounded nesting and tables", "anchors": ["internal/formatter.go:SubqueryExprNode"]}
{"id": "C142", "title": "Columns of a query are never confused", "statement": "Two different columns of a query are never the same column to SQLite, even if their names only differ in case or contain the text of an identifier.", "quantifier": "all pairs of columns", "why_tests_cant": "all names", "anchors": ["internal/formatter.go:uniqueColumnName"]}
{"id": "C143", "title": "CREATE TABLE creates the table it describes", "statement": "CREATE TABLE creates a table with the columns, NOT NULL constraints and primary key of the statement, whatever the names of the table and columns are.", "quantifier": "every table definition", "why_tests_cant": "all names and lists of columns", "anchors": ["internal/spec.go:SQLiteSchema", "internal/spec.go:ColumnSpec.SQLiteSchema", "internal/spec.go:newPrimaryKey"]}
{"id": "C144", "title": "ORDER BY orders the result", "statement": "The rows of a query with ORDER BY are those of the query without it, in the order of the items: by the first, rows equal on it by the second, and so on, ascending or descending, with NULLs first or last as the item says (first for ascending, last for descending order by default).", "quantifier": "every query, list of items and database", "why_tests_cant": "unbounded tables and items", "anchors": ["internal/formatter.go:OrderByScanNode"]}
{"id": "C145", "title": "LIMIT and OFFSET", "statement": "LIMIT n OFFSET m on an ordered query yields the rows m+1 to m+n of the ordered result.", "quantifier": "every ordered query, n, m and database", "why_tests_cant": "unbounded tables", "anchors": ["internal/formatter.go:LimitOffsetScanNode"]}
{"id": "C146", "title": "GROUP BY yields one row per key", "statement": "A grouped query yields exactly one row for each key among its input rows, with the aggregates of the input rows with this key, and no other rows.", "quantifier": "every grouped query, aggregates and database", "why_tests_cant": "unbounded tables", "anchors": ["internal/formatter.go:AggregateScanNode"]}
{"id": "C147", "title": "Set operations count rows", "statement": "UNION ALL yields each row as often as its queries together; UNION, INTERSECT and EXCEPT DISTINCT yield, once each, the rows of one of the queries, of all of them, and of the first but none of the others.", "quantifier": "every list of queries and database", "why_tests_cant": "unbounded tables", "anchors": ["internal/formatter.go:SetOperationScanNode"]}
{"id": "C148", "title": "Joins pair matching rows", "statement": "A join yields exactly the pairs of rows for which its condition is true, and an outer join also the rows without match of the inputs it keeps, padded with NULLs.", "quantifier": "every kind, inputs, condition and database", "why_tests_cant": "unbounded tables", "anchors": ["internal/formatter.go:JoinScanNode"]}
{"id": "C149", "title": "Columns keep the values of their type", "statement": "A value stored in a column of its type is read back as it was stored: SQLite's conversions for columns of the type leave it alone.", "quantifier": "every value of every type", "why_tests_cant": "all values", "anchors": ["internal/spec.go:ColumnSpec.SQLiteSchema", "internal/encoder.go:EncodeValue"]}
{"id": "C150", "title": "Auto index mode only adds indexes", "statement": "With SetAutoIndexMode, CREATE TABLE works whenever it works without it.", "quantifier": "every table definition and name path", "why_tests_cant": "all names", "anchors": ["internal/stmt_action.go:createIndexAutomatically", "driver.go:SetAutoIndexMode"]}
{"id": "C151", "title": "WHERE keeps exactly the matching rows", "statement": "A query with WHERE yields the rows for which the condition is true, each as often as before and in the order of its input; rows for which it is false or NULL are dropped.", "quantifier": "every query, condition and database", "why_tests_cant": "unbounded tables and conditions", "anchors": ["internal/formatter.go:FilterScanNode"]}
{"id": "C152", "title": "UNNEST yields one row per element", "statement": "Joining a table with UNNEST(array) WITH OFFSET yields, for each row, one row per element of its array in order, with the positions 0, 1, 2, ….", "quantifier": "every table, array expression and database", "why_tests_cant": "unbounded arrays", "anchors": ["internal/formatter.go:ArrayScanNode"]}
{"id": "C153", "title": "Aggregates without GROUP BY yield one row", "statement": "A query of aggregates without GROUP BY yields exactly one row, the aggregates over all input rows, also if there are none.", "quantifier": "every input, list of aggregates and database", "why_tests_cant": "unbounded tables", "anchors": ["internal/formatter.go:AggregateScanNode"]}
{"id": "C154", "title": "DELETE removes the matching rows", "statement": "DELETE FROM t WHERE c removes exactly the rows of t for which c is true and leaves all others and all other tables as they were.", "quantifier": "every table, condition (with subqueries) and database", "why_tests_cant": "unbounded tables and conditions", "anchors": ["internal/formatter.go:DeleteStmtNode", "internal/analyzer.go:newDMLStmtAction"]}
{"id": "C155", "title": "UPDATE changes the matching rows", "statement": "UPDATE t SET … [FROM …] WHERE c changes exactly the columns of SET in exactly the rows for which c is true (for the one row of FROM that matches), to the values of the expressions before the statement.", "quantifier": "every table, list of assignments, FROM clause, condition and database", "why_tests_cant": "unbounded tables and expressions", "anchors": ["internal/formatter.go:UpdateStmtNode", "internal/formatter.go:UpdateItemNode"]}
{"id": "C156", "title": "INSERT … SELECT appends the rows of the query", "statement": "INSERT INTO t (cols) SELECT … appends the rows of the query in order, with NULL for the columns that are not mentioned.", "quantifier": "every table, list of columns, query and database", "why_tests_cant": "unbounded tables and queries", "anchors": ["internal/formatter.go:InsertStmtNode"]}
{"id": "C157", "title": "INSERT … VALUES appends the values", "statement": "INSERT INTO t (cols) VALUES … appends one row per list of expressions, with their values, and NULL for the columns that are not mentioned.", "quantifier": "every table, list of columns, rows of expressions and database", "why_tests_cant": "unbounded rows and expressions", "anchors": ["internal/formatter.go:InsertStmtNode", "internal/formatter.go:InsertRowNode"]}
{"id": "C158", "title": "CREATE TABLE … AS SELECT", "statement": "CREATE [OR REPLACE] TABLE [IF NOT EXISTS] t AS SELECT … makes a table with the names and rows of the query; an existing table is replaced, left alone or an error, as the statement says.", "quantifier": "every query, mode and database", "why_tests_cant": "unbounded tables and queries", "anchors": ["internal/spec.go:newTableAsSelectSpec", "internal/spec.go:SQLiteSchema", "internal/stmt_action.go:CreateTableStmtAction.exec"]}
{"id": "C159", "title": "FLOAT64 arithmetic is correctly rounded and reports overflow", "statement": "For all finite FLOAT64 x and y, x + y, x - y, x * y and x / y (y not zero) are the FLOAT64 nearest to the exact result when that is within the finite range; an exact result of magnitude 2^1024 or more is an error, and so is division by zero.", "quantifier": "all finite FLOAT64 values x and y, subnormal ones and both zeros included", "why_tests_cant": "There are 2^128 pairs; tests only take a few.", "anchors": ["internal/value.go: FloatValue.Add, Sub, Mul, Div"]}
{"id": "C160", "title": "CAST of FLOAT64 to INT64 rounds", "statement": "For every FLOAT64 x, CAST(x AS INT64) is the nearest integer, halves away from zero, and an error if that is not an INT64 or x is infinite or NaN.", "quantifier": "all FLOAT64 values", "why_tests_cant": "2^64 values; the interesting ones are at halves and at the ends of the range.", "anchors": ["internal/value.go: FloatValue.ToInt64", "internal/encoder.go: CastValue"]}
{"id": "C161", "title": "FLOOR, CEIL and TRUNC of FLOAT64", "statement": "For every finite FLOAT64 x, FLOOR(x) is the largest integer not above x, CEIL(x) the smallest not below x, TRUNC(x) is x without its fraction; the results are exact FLOAT64 values, and infinities are unchanged.", "quantifier": "all FLOAT64 values other than NaN", "why_tests_cant": "2^64 values.", "anchors": ["internal/function_math.go: FLOOR, CEIL, TRUNC"]}
{"id": "C162", "title": "TRUNC with a number of decimals", "statement": "For every finite FLOAT64 x and n >= 0, TRUNC(x, n) is x cut after n decimals (the nearest FLOAT64 to it).", "quantifier": "all finite FLOAT64 values and all n", "why_tests_cant": "Infinitely many pairs.", "anchors": ["internal/function_math.go: TRUNC", "internal/function_bind.go: bindTrunc"]}
{"id": "C163", "title": "IEEE_DIVIDE", "statement": "For all FLOAT64 x and y, IEEE_DIVIDE(x, y) never fails and is the quotient of IEEE 754: nearest when finite, infinite with the right sign for x / 0 and on overflow, NaN for 0/0, inf/inf and NaN operands.", "quantifier": "all pairs of FLOAT64 values, infinities and NaN included", "why_tests_cant": "The special cases interact with how results travel through SQLite.", "anchors": ["internal/function_math.go: IEEE_DIVIDE", "internal/encoder.go: EncodeValue"]}
{"id": "C164", "title": "FLOAT64 values survive the way through the database", "statement": "Every FLOAT64 that a client sends as a parameter comes back the same, NaN and the infinities included, and IS_NAN and IS_INF tell NaN and the infinities from other values.", "quantifier": "all FLOAT64 values; all expressions of FLOAT64 functions", "why_tests_cant": "Every function call passes its arguments and its result through SQLite values.", "anchors": ["internal/encoder.go: EncodeValue", "internal/decoder.go: DecodeValue", "internal/function_math.go: IS_NAN"]}
{"id": "C165", "title": "SIGN and ABS of FLOAT64", "statement": "For every FLOAT64 x other than NaN, SIGN(x) is -1, 0 or 1 as x is below, equal to or above zero, and ABS(x) is its magnitude.", "quantifier": "all FLOAT64 values other than NaN", "why_tests_cant": "2^64 values, two of them zeros.", "anchors": ["internal/function_math.go: SIGN, ABS"]}
{"id": "C166", "title": "Order of FLOAT64", "statement": "For all FLOAT64 values other than NaN the operators < <= > >= = agree with the order of the numbers (the two zeros are equal, the infinities are at the ends); GREATEST and LEAST return one of their arguments, and none is greater, or less.", "quantifier": "all pairs and all non-empty lists of FLOAT64 values other than NaN", "why_tests_cant": "Unboundedly many lists.", "anchors": ["internal/value.go: FloatValue.EQ, GT, GTE, LT, LTE", "internal/function_math.go: GREATEST, LEAST"]}
{"id": "C167", "title": "LOG with a base", "statement": "LOG(x, y) is the logarithm of x to the base y; in particular LOG(y^n, y) = n.", "quantifier": "all bases y >= 2 and exponents n with y^n < 2^53", "why_tests_cant": "Unbounded.", "anchors": ["internal/function_math.go: LOG"]}
{"id": "C168", "title": "CAST of FLOAT64 to NUMERIC", "statement": "For every FLOAT64 x, CAST(x AS NUMERIC) is x rounded to nine decimals, halves away from zero; an infinite x is an error.", "quantifier": "all FLOAT64 values", "why_tests_cant": "2^64 values.", "anchors": ["internal/value.go: FloatValue.ToRat", "internal/encoder.go: CastValue"]}
{"id": "C169", "title": "CAST of FLOAT64 to STRING", "statement": "For every FLOAT64 x with an integral value below 10^15, CAST(x AS STRING) is the decimal numeral of that integer; zero has no sign.", "quantifier": "all integral values below 10^15, both signs", "why_tests_cant": "10^15 values.", "anchors": ["internal/value.go: FloatValue.ToString"]}
{"id": "C170", "title": "SAFE functions of FLOAT64", "statement": "For all finite FLOAT64 x and y, SAFE_ADD, SAFE_SUBTRACT, SAFE_MULTIPLY and SAFE_DIVIDE never fail: they are the FLOAT64 nearest to the exact result when that is in range, and NULL when the plain operator would fail (overflow, division by zero).", "quantifier": "all pairs of finite FLOAT64 values", "why_tests_cant": "2^128 pairs.", "anchors": ["internal/function_math.go: SAFE_ADD, SAFE_SUBTRACT, SAFE_MULTIPLY, SAFE_DIVIDE"]}
{"id": "C171", "title": "CUME_DIST", "statement": "CUME_DIST() OVER (PARTITION BY … ORDER BY …) is, for every row, the number of rows of its partition that do not come after it in the order (peers included) over the number of rows of the partition, as the nearest FLOAT64.", "quantifier": "all inputs of up to 2^53 rows, partition keys, order keys and directions, and every order the sort may leave peers in", "why_tests_cant": "Unbounded inputs; the order of peers is up to the sort.", "anchors": ["internal/function_window.go: WINDOW_CUME_DIST"]}
{"id": "C172", "title": "PERCENT_RANK", "statement": "PERCENT_RANK() OVER (PARTITION BY … ORDER BY …) is, for every row, the number of rows of its partition that come before it over the number of the other rows, as the nearest FLOAT64, and 0 in a partition of one row.", "quantifier": "all inputs of up to 2^53 rows, partition keys, order keys and directions", "why_tests_cant": "Unbounded inputs.", "anchors": ["internal/function_window.go: WINDOW_PERCENT_RANK"]}
{"id": "C173", "title": "AVG over a frame", "statement": "AVG([DISTINCT] x) OVER (… ROWS BETWEEN … AND …) on INT64 is the nearest FLOAT64 to the mean of the non-NULL (and, with DISTINCT, different) values of the frame, and NULL if there are none.", "quantifier": "all inputs, frames and rows, with sums within 2^53", "why_tests_cant": "Unbounded inputs and frames.", "anchors": ["internal/function_window.go: WINDOW_AVG"]}
{"id": "C174", "title": "PERCENTILE_CONT", "statement": "PERCENTILE_CONT(x, p) OVER (…) ignores NULLs, is NULL without values, and otherwise the linear interpolation at p · (n - 1) between the neighbouring values in ascending order.", "quantifier": "all lists of FLOAT64 values and NULLs, all p in [0, 1]", "why_tests_cant": "Unbounded lists of values.", "anchors": ["internal/function_window.go: WINDOW_PERCENTILE_CONT"]}
{"id": "C175", "title": "PERCENTILE_DISC", "statement": "PERCENTILE_DISC(x, p) OVER (…) ignores NULLs, is NULL without values, and otherwise the first value in ascending order whose cumulative share of the values is at least p.", "quantifier": "all lists of values of one type and NULLs, all p in [0, 1]", "why_tests_cant": "Unbounded lists of values.", "anchors": ["internal/function_window.go: WINDOW_PERCENTILE_DISC"]}
{"id": "C176", "title": "GROUP BY ROLLUP is translated faithfully", "statement": "A query with GROUP BY ROLLUP, on any input, yields the rows SQL says: those of every grouping set.", "quantifier": "every input query, grouping expressions, grouping sets, aggregates and database", "why_tests_cant": "Unbounded queries and databases.", "anchors": ["internal/formatter.go: AggregateScanNode.FormatSQL"]}
{"id": "C177", "title": "ROLLUP yields subtotals and totals", "statement": "GROUP BY ROLLUP yields, for each grouping set, exactly one row per combination of the values of its columns, with NULL for the other grouping columns and the aggregates of exactly the input rows with these values; the empty set yields one row over all rows, also if there are none.", "quantifier": "every input query, grouping expressions, grouping sets, aggregates and database", "why_tests_cant": "Unbounded inputs.", "anchors": ["internal/formatter.go: AggregateScanNode.FormatSQL"]}
{"id": "C178", "title": "Analytic functions are translated faithfully", "statement": "A query with analytic functions f(…) OVER (PARTITION BY … ORDER BY …), on any input, yields the rows SQL says; each function gets its arguments, partition and order values of every row.", "quantifier": "every input query, list of analytic functions with any arguments, partition columns and ORDER BY items, and database", "why_tests_cant": "Unbounded queries and databases.", "anchors": ["internal/formatter.go: AnalyticScanNode.FormatSQL, AnalyticFunctionCallNode.FormatSQL"]}
{"id": "C179", "title": "Analytic functions keep the rows", "statement": "A query with analytic functions yields exactly one row for each row of its input, with the columns of this row and the values of the functions for it.", "quantifier": "every input query, analytic functions and database", "why_tests_cant": "Unbounded inputs, duplicate rows included.", "anchors": ["internal/formatter.go: AnalyticScanNode.FormatSQL"]}
{"id": "C180", "title": "Aggregates in subqueries", "statement": "An aggregate function in a scalar subquery aggregates over the rows of the subquery, whichever columns its arguments refer to.", "quantifier": "every outer query, subquery and arguments", "why_tests_cant": "Unbounded queries.", "anchors": ["internal/formatter.go: AggregateFunctionCallNode.FormatSQL, SubqueryExprNode.FormatSQL"]}
{"id": "C181", "title": "APPROX_COUNT_DISTINCT is exact", "statement": "For every group of INT64, BOOL, STRING or BYTES rows, APPROX_COUNT_DISTINCT returns the exact number of distinct non-NULL values (and, for any other type, whenever distinct values have distinct texts).", "quantifier": "every group of rows of one of these types, NULLs anywhere", "why_tests_cant": "Tests try a handful of groups; a collision between two values needs the one pair that maps to the same key.", "anchors": ["internal/function_aggregate.go: APPROX_COUNT_DISTINCT", "internal/value.go: ToString"]}
{"id": "C182", "title": "APPROX_QUANTILES spans the data", "statement": "APPROX_QUANTILES(x, n) returns n + 1 values in ascending order, the first the least and the last the greatest non-NULL value. (False: the rows are never sorted and NULLs are kept; what is returned first and last is the first and the last row; n = 12 gives 14 elements.)", "quantifier": "every group of rows in every order and every n", "why_tests_cant": "Tests feed sorted rows.", "anchors": ["internal/function_aggregate.go: APPROX_QUANTILES", "internal/function_bind.go: bindApproxQuantiles"]}
{"id": "C183", "title": "APPROX_TOP_COUNT returns the most frequent values", "statement": "APPROX_TOP_COUNT(x, n) returns the n most frequent values with their counts, most frequent first; fewer if there are fewer distinct values. (False: fewer distinct values than n are an error; equal NUMERIC values are counted separately; BYTES panic.)", "quantifier": "every group of rows, every n, every iteration order of the map", "why_tests_cant": "Map iteration and the unstable sort give a different schedule on each run.", "anchors": ["internal/function_aggregate.go: APPROX_TOP_COUNT", "internal/function_bind.go: bindApproxTopCount"]}
{"id": "C184", "title": "APPROX_TOP_SUM returns the heaviest values", "statement": "APPROX_TOP_SUM(x, w, n) returns the n values with the greatest sums of INT64 weights, greatest first, NULL sums last; fewer if there are fewer distinct values. (False: fewer distinct values than n are an error.)", "quantifier": "every group of rows and weights whose sums stay in range, every n, every iteration order of the map", "why_tests_cant": "Map iteration and the unstable sort give a different schedule on each run.", "anchors": ["internal/function_aggregate.go: APPROX_TOP_SUM", "internal/function_bind.go: bindApproxTopSum"]}
{"id": "C185", "title": "COVAR_POP is the population covariance", "statement": "COVAR_POP(x, y) is E[xy] - E[x]E[y] over the rows in which neither is NULL. (False: it is the sample covariance, n/(n-1) times as large, and NULL for one row; right exactly when there are no rows or at least two with covariance 0.)", "quantifier": "every group of rows", "why_tests_cant": "A test compares with the number the program printed.", "anchors": ["internal/function_aggregate.go: COVAR_POP"]}
{"id": "C186", "title": "COVAR_SAMP, VAR_SAMP and VAR_POP compute their definitions", "statement": "Up to floating point rounding, COVAR_SAMP and VAR_SAMP are the sample covariance and variance (NULL below two rows) and VAR_POP the population variance (NULL without rows) of the rows without NULL.", "quantifier": "every group of rows", "why_tests_cant": "An identity of two formulas over all inputs.", "anchors": ["internal/function_aggregate.go: COVAR_SAMP, VAR_SAMP, VAR_POP"]}
{"id": "C187", "title": "HyperLogLog sketches merge consistently", "statement": "The estimate of a sketch does not depend on the order or repetition of rows; merging the sketches of groups estimates the same as one sketch over all the rows; partial merges can be nested freely.", "quantifier": "every group, every partition of the rows into groups, every nesting of merges", "why_tests_cant": "Quantifies over every partition of the data.", "anchors": ["internal/function_aggregate.go: HLL_COUNT_INIT, HLL_COUNT_MERGE, HLL_COUNT_MERGE_PARTIAL, HLL_COUNT_EXTRACT", "internal/function_bind.go: bindHllCountInit, bindHllCountMerge"]}
{"id": "C188", "title": "HLL_COUNT.INIT ignores NULLs", "statement": "HLL_COUNT.INIT ignores NULL rows and is NULL over NULLs alone. (False: all NULLs together count as one more value, of hash 0.)", "quantifier": "every group of rows with NULLs anywhere", "why_tests_cant": "Tests have no NULLs in the sketched column.", "anchors": ["internal/function_aggregate.go: HLL_COUNT_INIT", "internal/function_bind.go: bindHllCountInit"]}
{"id": "C189", "title": "TO_JSON_STRING returns JSON", "statement": "TO_JSON_STRING of a value that is not NULL returns a text that RFC 8259 reads as that value: numbers as numbers, strings, dates and times as strings, BYTES as base64, arrays and structs element by element. (False: dates and times are written without quotes, and Go's string escapes \\a, \\v, \\x.. and \\U........ are not JSON.)", "quantifier": "every value of every type, nested to any depth, every text", "why_tests_cant": "Tests use a few values without control characters and dates.", "anchors": ["internal/value.go: ToJSON, ArrayValue.ToString, StructValue.ToString", "internal/function_json.go: TO_JSON_STRING"]}
{"id": "C190", "title": "TO_JSON_STRING of NULL is null", "statement": "TO_JSON_STRING(NULL) is the text null, and a NULL inside an array is null there. (False for NULL itself: the call panics. TO_JSON(NULL) is NULL.)", "quantifier": "every value with NULLs anywhere", "why_tests_cant": "Quantifies over every array.", "anchors": ["internal/function_bind.go: bindToJsonString, bindToJson", "internal/value.go: ArrayValue.ToString"]}
{"id": "C191", "title": "Wide numbers in JSON", "statement": "TO_JSON_STRING, and TO_JSON with stringify_wide_numbers, write INT64 values beyond 2^53 as JSON strings. (False: always as numbers; the options have no effect.)", "quantifier": "every INT64 and every setting of the options", "why_tests_cant": "Quantifies over every INT64.", "anchors": ["internal/function_json.go: TO_JSON, TO_JSON_STRING", "internal/value.go: IntValue.ToJSON"]}
{"id": "C192", "title": "TO_JSON_STRING tells values apart", "statement": "Two values of one type have the same TO_JSON_STRING text exactly if they are the same SQL value; DISTINCT over arrays and structs, which compares these texts, merges exactly the equal ones.", "quantifier": "every type, every pair of values of it, nested to any depth, any characters in texts and field names", "why_tests_cant": "A collision is a property of all pairs of values.", "anchors": ["internal/value.go: ToJSON, ArrayValue.ToString, StructValue.ToString"]}
{"id": "C193", "title": "JSON_VALUE returns the scalar at the path", "statement": "JSON_VALUE(doc, path) returns the text of the scalar the path selects: the characters of a string, true or false, the decimal digits of an integer; NULL for JSON null, arrays, objects and for nothing selected. (False for integers of seven digits and more: 1000000 becomes 1e+06.)", "quantifier": "every document, path and selected value, over any JSON library that selects and decodes correctly", "why_tests_cant": "Quantifies over every JSON value; tests use small numbers.", "anchors": ["internal/function_json.go: JSON_VALUE", "internal/function_bind.go: bindJsonValue"]}
{"id": "C194", "title": "JSON_EXTRACT_SCALAR agrees with JSON_VALUE", "statement": "For a path without quoted selectors JSON_EXTRACT_SCALAR returns what JSON_VALUE returns. (False where the path selects JSON null: JSON_EXTRACT_SCALAR panics.)", "quantifier": "every document, path and selected value", "why_tests_cant": "Quantifies over every JSON value.", "anchors": ["internal/function_json.go: JSON_EXTRACT_SCALAR, JSON_VALUE"]}
{"id": "C195", "title": "JSON_VALUE_ARRAY maps JSON_VALUE over an array of scalars", "statement": "For a selected array of scalars JSON_VALUE_ARRAY and JSON_EXTRACT_STRING_ARRAY return the array of what JSON_VALUE gives for each element, NULL for JSON null; for an array with another element, and for anything else, NULL. (False: JSON null among the elements panics, and the string \"null\" becomes NULL.)", "quantifier": "every document, path and selected array of any length", "why_tests_cant": "Quantifies over arrays of any length and content.", "anchors": ["internal/function_json.go: JSON_VALUE_ARRAY, JSON_EXTRACT_STRING_ARRAY"]}
{"id": "C196", "title": "JSON_QUERY returns the JSON at the path", "statement": "JSON_QUERY and JSON_EXTRACT return a JSON text that denotes the selected value, and NULL exactly if the path selects nothing or JSON null, or an argument is NULL; a quoted selector of the kind the function does not take is an error.", "quantifier": "every document, path and selected value, over any JSON library that selects and compacts correctly", "why_tests_cant": "Quantifies over every JSON value.", "anchors": ["internal/function_json.go: JSON_QUERY, JSON_EXTRACT", "internal/function_bind.go: bindJsonQuery, bindJsonExtract"]}
{"id": "C197", "title": "JSON_QUERY_ARRAY returns the elements", "statement": "JSON_QUERY_ARRAY and JSON_EXTRACT_ARRAY return, for a selected array, one JSON text per element denoting it, NULL for JSON null; for anything else NULL. (False if a tab or line break precedes the bracket: the result is NULL.)", "quantifier": "every document, path, selected array and white space in the document", "why_tests_cant": "Quantifies over texts of any layout.", "anchors": ["internal/function_json.go: JSON_QUERY_ARRAY, JSON_EXTRACT_ARRAY"]}
{"id": "C198", "title": "JSON_TYPE names the kind of JSON", "statement": "JSON_TYPE(PARSE_JSON(s)) is null, boolean, number, string, array or object, as the text s denotes. (False for null with white space around it: the call panics.)", "quantifier": "every JSON text", "why_tests_cant": "Quantifies over every text.", "anchors": ["internal/function_json.go: JSON_TYPE, PARSE_JSON", "internal/value.go: JsonValue.Type, JsonValue.Interface"]}
{"id": "C199", "title": "JSON_VALUE undoes TO_JSON", "statement": "JSON_VALUE(TO_JSON(v), '$') is the text of v for an INT64 below 2^53, a BOOL or a STRING. (False for integers of seven digits and more, and for control characters without a JSON escape.)", "quantifier": "every INT64, BOOL and STRING", "why_tests_cant": "Quantifies over every value.", "anchors": ["internal/function_json.go: TO_JSON, JSON_VALUE", "internal/value.go: ToJSON"]}
{"id": "C200", "title": "PARSE_JSON refuses numbers it would round", "statement": "In the mode exact, the default, PARSE_JSON fails exactly for numbers that cannot be kept without loss. (False: the mode is ignored and every JSON text accepted and kept as it is.)", "quantifier": "every JSON text and mode", "why_tests_cant": "Quantifies over every number.", "anchors": ["internal/function_json.go: PARSE_JSON", "internal/function_bind.go: bindParseJson"]}
{"id": "C201", "title": "STRING of JSON", "statement": "STRING(json) returns the text of a JSON string and fails for any other JSON. (False: it never fails; JSON null becomes the text <nil>.)", "quantifier": "every JSON value", "why_tests_cant": "Quantifies over every JSON value.", "anchors": ["internal/function_bind.go: bindString", "internal/value.go: JsonValue.Interface"]}
{"id": "C202", "title": "COUNT and COUNTIF over a frame", "statement": "For every row, COUNT(*) OVER is the number of rows in its ROWS frame, COUNT(x) of those in which x is not NULL, COUNT(DISTINCT x) of their different values, COUNTIF(x) of those in which x is TRUE. (False for a frame that is empty because its bounds are in the wrong order: a panic.)", "quantifier": "every table, partitioning, window order and ROWS frame", "why_tests_cant": "Quantifies over tables of any size and all frames.", "anchors": ["internal/function_window.go: WINDOW_COUNT, WINDOW_COUNT_STAR, WINDOW_COUNTIF"]}
{"id": "C203", "title": "SUM over a frame", "statement": "For every row, SUM([DISTINCT] x) OVER is the sum of the (different) INT64 values in its ROWS frame, NULL if there is none, an error if the sum is not an INT64. (False: the sum wraps around; bounds in the wrong order panic.)", "quantifier": "every table of INT64 values, partitioning, window order and ROWS frame", "why_tests_cant": "Quantifies over tables of any size and all frames.", "anchors": ["internal/function_window.go: WINDOW_SUM"]}
{"id": "C204", "title": "STRING_AGG over a frame", "statement": "For every row, STRING_AGG([DISTINCT] x, d) OVER is the texts in its ROWS frame with d between them, NULL if there is none. (False for the empty delimiter: commas appear.)", "quantifier": "every table of STRING values, partitioning, window order, ROWS frame and delimiter", "why_tests_cant": "Quantifies over tables of any size, all frames and all delimiters.", "anchors": ["internal/function_window.go: WINDOW_STRING_AGG", "internal/function_bind.go: bindWindowStringAgg"]}
{"id": "C205", "title": "ARRAY_AGG over a frame", "statement": "For every row, ARRAY_AGG([DISTINCT] x [IGNORE NULLS]) OVER is the array of the values in its ROWS frame in window order, without NULLs under IGNORE NULLS, and NULL if there is none. (False: a NULL in any row of the input is an error even under IGNORE NULLS, and an empty frame gives an empty array.)", "quantifier": "every table, partitioning, window order, ROWS frame and null handling", "why_tests_cant": "Quantifies over tables of any size with NULLs anywhere.", "anchors": ["internal/function_window.go: WINDOW_ARRAY_AGG"]}
{"id": "C206", "title": "ANY_VALUE over a frame", "statement": "For every row, ANY_VALUE(x) OVER is a value of x in its ROWS frame that is not NULL, and NULL only if there is none. (False: NULL if the first row of the frame is NULL, and a value from outside the frame if the frame is empty.)", "quantifier": "every table, partitioning, window order and ROWS frame", "why_tests_cant": "Quantifies over tables of any size with NULLs anywhere and all frames.", "anchors": ["internal/function_window.go: WINDOW_ANY_VALUE"]}
{"id": "C207", "title": "VAR_POP and VAR_SAMP over a frame", "statement": "For every row, VAR_POP and VAR_SAMP OVER are the population and sample variance of the numbers in its ROWS frame, NULLs ignored. (False: a NULL in the frame panics, and VAR_POP of a partition of one row is NULL.)", "quantifier": "every table of numbers, partitioning, window order and ROWS frame, in exact arithmetic", "why_tests_cant": "Quantifies over tables of any size with NULLs anywhere.", "anchors": ["internal/function_window.go: WINDOW_VAR_POP, WINDOW_VAR_SAMP"]}
{"id": "C208", "title": "COVAR_SAMP over a frame", "statement": "For every row, COVAR_SAMP(x, y) OVER is the sample covariance of the rows in its ROWS frame in which neither is NULL. (False: a row with a NULL is not counted, so every later row is taken for another one, and the last ones panic; right without NULLs, and over the whole input.)", "quantifier": "every table of pairs of numbers, partitioning, window order and ROWS frame, in exact arithmetic", "why_tests_cant": "Quantifies over tables of any size with NULLs anywhere.", "anchors": ["internal/function_window.go: WINDOW_COVAR_SAMP, WINDOW_COVAR_POP"]}
{"id": "C209", "title": "REGEXP_CONTAINS finds matches", "statement": "REGEXP_CONTAINS(value, regexp) is TRUE exactly if the regular expression matches part of value, an error if it is no regular expression, NULL if an argument is NULL. (False for BYTES: the base64 texts of the value and of the expression are used.)", "quantifier": "every value, every regular expression, every engine with the laws of package regexp", "why_tests_cant": "Quantifies over all texts and all regular expressions.", "anchors": ["internal/function_string.go: REGEXP_CONTAINS", "internal/function_bind.go: bindRegexpContains"]}
{"id": "C210", "title": "REGEXP_EXTRACT gives the match asked for", "statement": "REGEXP_EXTRACT(value, regexp, position, occurrence) is the occurrence-th match at or after the position, its group if the expression has one, NULL if there is none, an error for more than one group, a position or an occurrence below 1. (False: an expression with two groups is accepted, the position counts bytes, and BYTES are matched against the base64 text of the expression.)", "quantifier": "every value, regular expression, position and occurrence, every engine with the laws of package regexp", "why_tests_cant": "Quantifies over all texts, regular expressions and numbers.", "anchors": ["internal/function_string.go: REGEXP_EXTRACT", "internal/function_bind.go: bindRegexpExtract"]}
{"id": "C211", "title": "REGEXP_EXTRACT_ALL gives all matches", "statement": "REGEXP_EXTRACT_ALL(value, regexp) is the array of all matches, or of their groups if the expression has one, an error for more than one group. (False: an expression with two groups is accepted.)", "quantifier": "every value and regular expression, every engine with the laws of package regexp", "why_tests_cant": "Quantifies over all texts and regular expressions.", "anchors": ["internal/function_string.go: REGEXP_EXTRACT_ALL", "internal/function_bind.go: bindRegexpExtractAll"]}
{"id": "C212", "title": "REGEXP_INSTR gives the position of the match", "statement": "REGEXP_INSTR(value, regexp, position, occurrence, which) is the position, counted from 1, at which the occurrence-th match at or after the position starts (which 0) or the one after its end (which 1), 0 if there is none, an error for other arguments. (False: positions count bytes; a negative `which` panics.)", "quantifier": "every value, regular expression, position, occurrence and output position, every engine with the laws of package regexp", "why_tests_cant": "Quantifies over all texts, regular expressions and numbers.", "anchors": ["internal/function_string.go: REGEXP_INSTR", "internal/function_bind.go: bindRegexpInstr"]}
{"id": "C213", "title": "REGEXP_REPLACE replaces the matches", "statement": "REGEXP_REPLACE(value, regexp, replacement) is value with every match replaced: a backslash and a digit in the replacement stand for that group, two backslashes for one, everything else for itself. (False: a reference at the end is not closed, a lone zero reference and an escaped backslash are kept literally, a dollar sign is expanded, and a trailing backslash panics.)", "quantifier": "every value, regular expression and replacement, every engine with the laws of package regexp", "why_tests_cant": "Quantifies over all texts, regular expressions and replacements.", "anchors": ["internal/function_string.go: REGEXP_REPLACE, normalizeReplacement", "internal/function_bind.go: bindRegexpReplace"]}
{"id": "C214", "title": "INITCAP capitalises words", "statement": "INITCAP(value, delimiters) changes the first character of every word to upper case and its other characters to lower case and leaves the delimiters alone; the default delimiters are whitespace and the documented punctuation. (False: a tab does not separate words.)", "quantifier": "every text, every set of delimiters, every case table", "why_tests_cant": "Quantifies over all texts and delimiters.", "anchors": ["internal/function_string.go: INITCAP, initcapDefaultDelimiters", "internal/function_bind.go: bindInitcap"]}
{"id": "C215", "title": "SOUNDEX is American Soundex", "statement": "SOUNDEX(value) is the first letter in upper case and three digits: the codes of the following letters, adjacent letters with one code, also across H and W, once, letters with one code separated by a vowel twice, padded with zeros. (False: letters separated by a vowel count once, and a small first letter stays small.)", "quantifier": "every text", "why_tests_cant": "Quantifies over all texts.", "anchors": ["internal/function_string.go: SOUNDEX, soundexMap"]}
{"id": "C216", "title": "UPPER and LOWER of BYTES change ASCII letters only", "statement": "UPPER and LOWER of BYTES change the case of the bytes that are ASCII letters and nothing else. (False: a byte that is not UTF-8 is replaced by three others, and letters outside ASCII change case.)", "quantifier": "every byte string, every case table that is right on ASCII", "why_tests_cant": "Quantifies over all byte strings.", "anchors": ["internal/function_string.go: UPPER, LOWER"]}
{"id": "C217", "title": "STARTS_WITH and ENDS_WITH undo CONCAT", "statement": "CONCAT joins its arguments; STARTS_WITH(v, p) is TRUE exactly if v is CONCAT(p, r) for some r and ENDS_WITH(v, p) exactly if v is CONCAT(r, p) for some r; NULL arguments give NULL.", "quantifier": "every two STRING or BYTES values", "why_tests_cant": "Quantifies over all texts, in particular those in which the bytes of one character end like those of another.", "anchors": ["internal/function_string.go: CONCAT, STARTS_WITH, ENDS_WITH"]}
{"id": "C218", "title": "ASCII gives the code of the first character", "statement": "ASCII(value) is the code of the first character of a STRING, or of the first byte of BYTES, if that is ASCII, and 0 if value is empty. (False for BYTES: the first character of their base64 text.)", "quantifier": "every STRING and BYTES value", "why_tests_cant": "Quantifies over all texts and byte strings.", "anchors": ["internal/function_string.go: ASCII", "internal/function_bind.go: bindAscii"]}
{"id": "C219", "title": "Lengths of texts", "statement": "CHAR_LENGTH and LENGTH of a STRING are its number of characters, BYTE_LENGTH of a STRING between one and four times as many, equal exactly for ASCII texts; LENGTH and BYTE_LENGTH of BYTES are the number of bytes; CHAR_LENGTH and BYTE_LENGTH of CONCAT(s, t) are the sums.", "quantifier": "every STRING and BYTES value", "why_tests_cant": "Quantifies over all texts and byte strings.", "anchors": ["internal/function_string.go: CHAR_LENGTH, BYTE_LENGTH, LENGTH, CONCAT"]}
{"id": "C220", "title": "SAFE_CONVERT_BYTES_TO_STRING keeps what is text", "statement": "SAFE_CONVERT_BYTES_TO_STRING(b) is the text of the characters encoded in b with U+FFFD for every byte with which no encoding of a character starts, and of the bytes of a STRING that STRING.", "quantifier": "every byte string", "why_tests_cant": "Quantifies over all byte strings.", "anchors": ["internal/function_string.go: SAFE_CONVERT_BYTES_TO_STRING"]}
{"id": "C221", "title": "Calls on different names do not interfere", "statement": "When several connections of one data source execute scripts at the same time and no two scripts name the same object, each call returns what it returns when it runs alone, and leaves the objects it names as it leaves them alone; objects no script names are untouched. (False: a lookup inside another connection's DROP does not find existing objects; a DROP reverts a CREATE OR REPLACE of another connection.)", "quantifier": "any number of connections, every script, every schedule of their atomic steps", "why_tests_cant": "Quantifies over all interleavings of any number of calls; tests see a few schedules.", "anchors": ["driver.go: newDBAndCatalog, ExecContext", "internal/catalog.go: Catalog, Sync, AddNewTableSpec, DeleteTableSpec, resetCatalog, FindTable, getFunctions", "internal/stmt_action.go: CreateTableStmtAction, DropStmtAction", "internal/analyzer.go: Analyze"]}
{"id": "C222", "title": "Temporary objects are private to a call", "statement": "A temporary table, view or function exists only for the call that creates it: no call on another connection notices it, and when the call has returned it is gone from the catalog, from SQLite and from the file. (False: other connections see it, and creating one of the same name destroys it.)", "quantifier": "any number of connections, every script, every schedule of their atomic steps", "why_tests_cant": "Quantifies over all interleavings of any number of calls.", "anchors": ["internal/stmt_action.go: CreateTableStmtAction.Cleanup, CreateViewStmtAction.Cleanup, CreateFunctionStmtAction.Cleanup", "internal/catalog.go: AddNewTableSpec, DeleteTableSpec"]}
{"id": "C223", "title": "Statements are atomic with respect to crashes", "statement": "If the process dies at any point during a call, the database file holds what the first j statements of the call leave for some j: every object is both in SQLite and in the stored catalog or in neither, and no temporary object remains. (False: one name can be left half created or half dropped, and temporary tables survive.)", "quantifier": "every script of catalog statements, every consistent database, every crash point", "why_tests_cant": "Quantifies over all crash points of all scripts.", "anchors": ["internal/stmt_action.go: CreateTableStmtAction.exec, DropStmtAction.exec, CreateTableStmtAction.Cleanup", "internal/catalog.go: AddNewTableSpec, DeleteTableSpec, saveTableSpec"]}
{"id": "C224", "title": "NET.IP_FROM_STRING reads the texts of RFC 4291", "statement": "NET.IP_FROM_STRING(s) is the address exactly if s is an IPv4 address in decimal or a text of RFC 4291 2.2 (eight groups, one :: for zero groups, an IPv4 address at the end) that denotes it; every other text is an error, and NULL for NET.SAFE_IP_FROM_STRING.", "quantifier": "all texts", "why_tests_cant": "The texts of an address are unboundedly many mistakes away from each other; tests try a handful.", "anchors": ["internal/function_net.go: NET_IP_FROM_STRING, NET_SAFE_IP_FROM_STRING, parseIP"]}
{"id": "C225", "title": "NET.IP_TO_STRING writes the recommended IPv6 text", "statement": "NET.IP_TO_STRING of 16 bytes is the text RFC 5952 recommends (lower case, no leading zeros, :: for the first longest run of zero groups, IPv4-mapped addresses in mixed form); NET.IP_FROM_STRING gives the bytes back and different addresses have different texts.", "quantifier": "all addresses of 16 bytes", "why_tests_cant": "There are 2^128 addresses.", "anchors": ["internal/function_net.go: NET_IP_TO_STRING, NET_IP_FROM_STRING"]}
{"id": "C226", "title": "PARSE_NUMERIC reads exactly the numeric literals", "statement": "PARSE_NUMERIC(s) is the number s denotes if s is a decimal literal (sign, digits with at most one point, exponent) of a NUMERIC value, every other text is an error and NULL gives NULL; likewise PARSE_BIGNUMERIC.", "quantifier": "all texts", "why_tests_cant": "Which texts a number parser accepts is a matter of all texts; tests try the well-formed ones.", "anchors": ["internal/function_numeric.go: PARSE_NUMERIC, PARSE_BIGNUMERIC", "internal/function_bind.go: bindParseNumeric, bindParseBigNumeric"]}
{"id": "C227", "title": "NET.HOST is the host of the URL without its port", "statement": "NET.HOST(url) is the host of the URL as it is written, without its port (an IPv6 address keeps its brackets), and NULL for NULL, for a URL that cannot be parsed and for one without a host.", "quantifier": "all texts, every URL parser that closes the brackets it leaves in a host", "why_tests_cant": "Hosts and ports are arbitrary texts; tests try a dozen URLs.", "anchors": ["internal/function_net.go: NET_HOST, parseURL"]}
{"id": "C228", "title": "NET.REG_DOMAIN is NET.PUBLIC_SUFFIX and one label", "statement": "NET.PUBLIC_SUFFIX(url) is the end of the host that the public suffix list matches, as it is written in the URL; NET.REG_DOMAIN(url) is that and the label before it, NULL if there is none; both fail on the same URLs, never crash and give NULL for NULL.", "quantifier": "all texts, every URL parser, every conversion of international names that keeps the labels, every public suffix list", "why_tests_cant": "It is a claim about all hosts and all suffix lists; tests fix one list and few hosts.", "anchors": ["internal/function_net.go: NET_PUBLIC_SUFFIX, NET_REG_DOMAIN, publicSuffix", "internal/function_bind.go: bindNetPublicSuffix, bindNetRegDomain"]}
{"id": "C229", "title": "A JavaScript function that returns its argument changes nothing", "statement": "A JavaScript function whose body is `return x` returns its argument, for every type and value, NULL included.", "quantifier": "all values of the types BOOL, INT64, STRING, BYTES, NUMERIC, BIGNUMERIC, DATE, DATETIME, TIME, TIMESTAMP and arrays of them; all engines", "why_tests_cant": "Each type has unboundedly many values, and the conversion is one of two dozen combinations of type and JavaScript value.", "anchors": ["internal/function_javascript.go: EVAL_JAVASCRIPT, castJavaScriptValue", "internal/value.go: Interface"]}
{"id": "C230", "title": "A view shows the rows its query has now", "statement": "After any history of CREATE [OR REPLACE] VIEW [IF NOT EXISTS], DROP VIEW [IF EXISTS] and changes of tables, a query that reads views has the result it would have if every view were replaced by the rows its query has on the present tables, views of views included; CREATE and DROP VIEW fail exactly when the name is in use or missing and the statement does not say otherwise.", "quantifier": "every history of statements on tables and views, every query and every meaning of functions and literals", "why_tests_cant": "The views, their nesting and the changes after their creation are unbounded; a test runs one history.", "anchors": ["internal/spec.go: newTableAsViewSpec, viewSQLiteSchema", "internal/stmt_action.go: CreateViewStmtAction, DropStmtAction", "internal/analyzer.go: newCreateViewStmtAction"]}
{"id": "C231", "title": "CREATE … IF NOT EXISTS leaves an existing object alone", "statement": "CREATE TABLE IF NOT EXISTS and CREATE VIEW IF NOT EXISTS of a name that is in use succeed and change nothing: not the stored object, not its definition, not the catalog of a database opened again.", "quantifier": "every state of the database, every name in use and every new definition", "why_tests_cant": "The damage shows only in a later process or after further statements; tests look at the result of one statement.", "anchors": ["internal/stmt_action.go: CreateTableStmtAction.exec, CreateViewStmtAction.exec", "internal/catalog.go: AddNewTableSpec, addTableSpec, saveTableSpec"]}
{"id": "C232", "title": "The current time in views and functions is that of the statement that uses them", "statement": "CURRENT_DATE, CURRENT_DATETIME, CURRENT_TIME and CURRENT_TIMESTAMP in the query of a view or the body of a function have the value they would have in the statement that uses the view or function, also with WithCurrentTime.", "quantifier": "all times of creation and use, all zones", "why_tests_cant": "It relates two statements at arbitrary times.", "anchors": ["internal/spec.go: newFunctionSpec, newTableAsViewSpec, CallSQL", "internal/formatter.go: getFuncNameAndArgs", "context.go: WithCurrentTime"]}
{"id": "C233", "title": "A function of ANY TYPE can be called with every type its body allows", "statement": "A call of a function with arguments of ANY TYPE is accepted whenever its body has a type for the types of the arguments, and the call has the type declared with RETURNS or else that of the body.", "quantifier": "every body, seen as the function from argument types to its type, and every combination of argument types", "why_tests_cant": "The types of the arguments, structs and arrays included, and the bodies are unbounded.", "anchors": ["internal/analyzer.go: newCreateFunctionStmtAction, inferTemplatedTypeByRealType, inferTypes, buildScalarTypeFuncFromTemplatedFunc, buildArrayTypeFuncFromTemplatedFunc", "internal/spec.go: newTemplatedFunctionSpec, newTypeFromFunctionArgumentTypeByRealType"]}
{"id": "C234", "title": "What a function of ANY TYPE computes has the type of the call", "statement": "The value computed for a call of a function with arguments of ANY TYPE has the type that the analyzer gives the call.", "quantifier": "every body and every combination of argument types", "why_tests_cant": "A value of another type is read as one of the declared type, which shows only for some bodies and types.", "anchors": ["internal/spec.go: CallSQL, newFunctionSpec, newTemplatedFunctionSpec", "internal/analyzer.go: analyzeTemplatedFunctionWithRuntimeArgument"]}
{"id": "C235", "title": "SUM of FLOAT64", "statement": "SUM(x) of finite FLOAT64 values differs from the exact sum by no more than one rounding per addition allows, ((1 + 2^-53)^n - 1) times the sum of the magnitudes, whatever the order of the rows, if the exact sum is in range; NULLs are ignored and SUM of no values is NULL.", "quantifier": "every list of rows of any length, all FLOAT64 values", "why_tests_cant": "Rounding errors accumulate over columns of any length and depend on every value and on the order.", "anchors": ["internal/function_aggregate.go: SUM", "internal/value.go: FloatValue.Add"]}
{"id": "C236", "title": "MIN and MAX of FLOAT64", "statement": "MIN(x) and MAX(x) of a FLOAT64 column are NULL without values and otherwise values of the column such that none is less or greater, infinities included; NULLs are ignored.", "quantifier": "every list of rows of any length", "why_tests_cant": "The order of the rows and the values are unbounded.", "anchors": ["internal/function_aggregate.go: MIN, MAX", "internal/value.go: FloatValue.GT, FloatValue.LT"]}
{"id": "C237", "title": "AVG of FLOAT64", "statement": "AVG(x) of finite FLOAT64 values is the FLOAT64 nearest to their mean, and NULL without values.", "quantifier": "every list of at most 2^53 rows", "why_tests_cant": "Rounding errors depend on every value and on the order.", "anchors": ["internal/function_aggregate.go: AVG"]}
{"id": "C238", "title": "ABS, SIGN, FLOOR, CEIL and TRUNC of NUMERIC are exact", "statement": "For every NUMERIC, ABS, FLOOR, CEIL and TRUNC return the exact NUMERIC result and SIGN its sign.", "quantifier": "every NUMERIC, that is every multiple of one billionth below 10 to the 29th in magnitude", "why_tests_cant": "The functions pass through FLOAT64, whose rounding shows only for numbers with many digits.", "anchors": ["internal/function_math.go: ABS, SIGN, FLOOR, CEIL, TRUNC", "internal/value.go: NumericValue.ToFloat64, FloatValue.ToRat, NumericValue.toString", "internal/encoder.go: CastValue"]}
{"id": "C239", "title": "MOD and DIV of NUMERIC are exact", "statement": "For every pair of NUMERIC values, MOD is the exact remainder with the sign of the first and DIV the quotient rounded towards zero; division by zero is an error.", "quantifier": "every pair of NUMERIC values", "why_tests_cant": "Whether the rounding of FLOAT64 or the numerator of a fraction gives the right answer depends on both numbers.", "anchors": ["internal/function_math.go: MOD, DIV", "internal/value.go: NumericValue.ToFloat64, NumericValue.ToInt64"]}
{"id": "C240", "title": "DATE, DATETIME and TIME of fields", "statement": "DATE(year, month, day), DATETIME(year, …, second) and TIME(hour, minute, second) return the value that has these fields and fail if there is none.", "quantifier": "every combination of int64 fields", "why_tests_cant": "Only combinations such as 30 February or hour 25 show that fields are carried over instead of refused.", "anchors": ["internal/function_date.go: DATE", "internal/function_datetime.go: DATETIME", "internal/function_time.go: TIME"]}
{"id": "C241", "title": "TIMESTAMP and DATETIME in a time zone are inverse", "statement": "TIMESTAMP(DATETIME(t, zone), zone) is t; TIMESTAMP of a DATETIME, DATE or text and a zone is a moment at which the clock in the zone shows it; DATETIME(DATE(t, zone), TIME(t, zone)) is DATETIME(t, zone).", "quantifier": "every moment, every zone with changing offsets and every reading of its clock", "why_tests_cant": "The moments next to a change of the offset, in zones east and west of UTC, are not sampled.", "anchors": ["internal/function_timestamp.go: TIMESTAMP", "internal/function_datetime.go: DATETIME", "internal/function_date.go: DATE", "internal/function_time.go: TIME", "internal/util.go: modifyTimeZone", "internal/value.go: parseTimestamp", "internal/function.go: EXTRACT"]}
{"id": "C242", "title": "STRING of a TIMESTAMP denotes it", "statement": "TIMESTAMP(STRING(t, zone)) is t.", "quantifier": "every moment and zone", "why_tests_cant": "A text with a wrong offset looks right unless it is read back, in a zone that is not at UTC.", "anchors": ["internal/function_timestamp.go: STRING", "internal/function_bind.go: bindString"]}
{"id": "C243", "title": "Results do not depend on the time zone of the process", "statement": "DATE literals, DATE_FROM_UNIX_DATE, DATE, DATETIME, TIME and CAST of a TIMESTAMP without a zone, the current date, datetime and time, and TIMESTAMP_ADD and TIMESTAMP_SUB of days give the same in every time zone the process may run in.", "quantifier": "every zone of the process and every value", "why_tests_cant": "Tests run in one zone, in general UTC.", "anchors": ["internal/encoder.go: dateValueFromLiteral", "internal/decoder.go: DecodeValue", "internal/function_date.go: DATE_FROM_UNIX_DATE, DATE", "internal/function_datetime.go: DATETIME", "internal/function_time.go: TIME", "internal/function_timestamp.go: TIMESTAMP_ADD, TIMESTAMP_SUB", "internal/util.go: timeFromUnixNano"]}
{"id": "C244", "title": "TIMESTAMP_TRUNC in zones with changing offsets", "statement": "TIMESTAMP_TRUNC(t, part, zone) is no later than t and the clock in the zone shows the start of the unit at it.", "quantifier": "every moment, part and zone with changing offsets", "why_tests_cant": "Only moments in the hour that is shown twice, or on a day without a midnight, tell.", "anchors": ["internal/function_timestamp.go: TIMESTAMP_TRUNC", "internal/function_date.go: DATE_TRUNC"]}
{"id": "C245", "title": "A field of a struct is the value it was made of", "statement": "The i-th field of a struct constructed from values is the i-th value, and a field of a NULL struct is NULL.", "quantifier": "every list of values and names, with missing and repeated names and NULL values", "why_tests_cant": "Names that are missing or occur twice are rarely tested.", "anchors": ["internal/function.go: MAKE_STRUCT, STRUCT_FIELD", "internal/function_bind.go: bindMakeStruct, bindStructField", "internal/formatter.go: MakeStructNode, GetStructFieldNode"]}
{"id": "C246", "title": "Structs are equal if all their fields are", "statement": "s = t and s IN (t) hold exactly if the fields of the two structs are equal at every position.", "quantifier": "every pair of structs of one type without NULL", "why_tests_cant": "Tests compare structs with named fields; tuples whose first fields differ and whose last ones agree are not tried.", "anchors": ["internal/function.go: EQ, IN", "internal/value.go: StructValue.EQ", "internal/formatter.go: MakeStructNode"]}
{"id": "C247", "title": "HAVING MAX and HAVING MIN of an aggregate", "statement": "f(x HAVING MAX y) is f of the rows whose y is the greatest of the group, f(x HAVING MIN y) of those whose y is the least.", "quantifier": "every aggregate function and group", "why_tests_cant": "With one row per group, or equal y, an aggregate that ignores the modifier is right.", "anchors": ["internal/formatter.go: AggregateFunctionCallNode, AggregateHavingModifierNode"]}
{"id": "C248", "title": "NULLS FIRST and NULLS LAST of an aggregate", "statement": "ARRAY_AGG(x ORDER BY y NULLS FIRST) collects the rows with NULL keys first, NULLS LAST last.", "quantifier": "every group, direction and order of NULLs", "why_tests_cant": "Only keys that are NULL, in the direction whose default is the other, tell.", "anchors": ["internal/formatter.go: AggregateFunctionCallNode", "internal/function_aggregate.go: sortAggregatedValues"]}
{"id": "C249", "title": "ARRAY_CONCAT_AGG concatenates the arrays", "statement": "ARRAY_CONCAT_AGG is the concatenation of the arrays that are not NULL, in the order asked for and up to the limit, and NULL if there are none.", "quantifier": "every group, order and limit", "why_tests_cant": "The order and the limit are combined with NULL arrays only for some inputs.", "anchors": ["internal/function_aggregate.go: ARRAY_CONCAT_AGG", "internal/function_bind.go: bindArrayConcatAgg"]}
{"id": "C250", "title": "Queries on TABLESAMPLE, PIVOT and UNPIVOT", "statement": "A query on a sampled, pivoted or unpivoted table gives what it gives on a table with the rows of the sample, of the pivoted or of the unpivoted table; if it is not supported, it fails.", "quantifier": "every database, every SELECT, with or without WHERE and aggregates, on such a table", "why_tests_cant": "Most queries on such a table name a column and fail; the few that do not succeed with a wrong result.", "anchors": ["internal/formatter.go: SampleScanNode, PivotScanNode, UnpivotScanNode", "internal/analyzer.go: newAnalyzerOptions"]}
{"id": "C251", "title": "Functions of NULL are NULL", "statement": "A scalar function or operator that is NULL if an argument is NULL according to the documentation is NULL for every arguments one of which is NULL, in any position.", "quantifier": "all such functions that are registered, all lists of arguments of an accepted length with a NULL", "why_tests_cant": "Some two hundred functions have arguments of their own that may be NULL; tests use few of them and rarely the later arguments.", "anchors": ["internal/function_bind.go: bind functions, existsNull", "internal/function_register.go: normalFuncs"]}
{"id": "C252", "title": "TRUNCATE and MERGE change the table that they name", "statement": "TRUNCATE TABLE empties the table that its path names (with the name path of the connection), and no other table; MERGE changes the table that its path names.", "quantifier": "all histories of CREATE, DROP and synchronisation, all name paths, all paths the analyzer finds, all contents of the tables", "why_tests_cant": "Tests truncate and merge tables without a dataset; whether the name of the table object is that of the stored table depends on the path and the name path.", "anchors": ["internal/analyzer.go: newTruncateStmtAction, newMergeStmtAction", "internal/catalog.go: addTableSpecRecursive, createSimpleTable", "internal/formatter.go: getTableName", "internal/stmt_action.go: TruncateStmtAction"]}
{"id": "C253", "title": "RowsAffected counts the rows that were changed", "statement": "RowsAffected of the result of Exec with an INSERT, UPDATE, DELETE, TRUNCATE or MERGE statement is the number of rows the statement inserted, changed or deleted.", "quantifier": "all databases, all statements of these kinds, all calls with several statements", "why_tests_cant": "The number depends on the rows of the database and on which statement of a call comes last; tests do not look at it.", "anchors": ["internal/result.go: Result", "internal/stmt_action.go: ExecContext", "internal/stmt.go: Exec", "driver.go: ExecContext"]}
{"id": "C254", "title": "A client that closes its rows can close its connection", "statement": "After Query, for every script and whatever it returns, a client that closes the rows it got can close the connection and the database: nothing is left open.", "quantifier": "all scripts of any length, all statements and all points at which a statement fails", "why_tests_cant": "Tests query single statements and never close the database after a script of several queries; the result depends on which statements of a script are queries and where it fails.", "anchors": ["driver.go: QueryContext, Close", "internal/stmt_action.go: QueryStmtAction.QueryContext, ExplainQueryPlan", "internal/rows.go: Rows.Close", "internal/stmt.go: QueryStmt.Query"]}
{"id": "C255", "title": "The rows of every query can be closed and asked for changes", "statement": "Rows that Query returns can be closed, and ChangedCatalogFromRows works on them, in explain mode as well.", "quantifier": "all scripts, with explain mode on or off for every statement, and prepared queries", "why_tests_cant": "Which pointers the rows hold depends on the last statement, on explain mode and on the statements before it; tests use explain mode with one query and do not look at the catalog.", "anchors": ["internal/rows.go: Rows", "internal/stmt_action.go: QueryStmtAction.QueryContext, Cleanup", "internal/stmt.go: QueryStmt.Query", "catalog.go: ChangedCatalogFromRows"]}
{"id": "C256", "title": "INSERT into a table with a primary key", "statement": "INSERT fails without an effect if two rows would have the same primary key; INSERT OR IGNORE leaves such rows out, OR REPLACE replaces and OR UPDATE updates the existing rows.", "quantifier": "all tables, all rows inserted, all modes", "why_tests_cant": "Whether keys collide depends on all rows of the table and of the statement; tests insert rows with different keys.", "anchors": ["internal/formatter.go: InsertStmtNode.FormatSQL", "internal/spec.go: TableSpec.SQLiteSchema"]}
{"id": "C257", "title": "UPDATE of a primary key", "statement": "An UPDATE that changes primary keys succeeds if all keys are distinct afterwards, and fails without an effect otherwise.", "quantifier": "all tables and all assignments of new keys", "why_tests_cant": "SQLite looks at one row after the other; whether a key is in the way on the way depends on the order and on all rows.", "anchors": ["internal/formatter.go: UpdateStmtNode.FormatSQL", "internal/spec.go: TableSpec.SQLiteSchema"]}
{"id": "C258", "title": "ASSERT_ROWS_MODIFIED is checked", "statement": "An INSERT, UPDATE or DELETE with ASSERT_ROWS_MODIFIED n fails without an effect unless it changes n rows.", "quantifier": "all databases, all statements, all n", "why_tests_cant": "The number of rows depends on the database; no test has the clause.", "anchors": ["internal/formatter.go: AssertRowsModifiedNode, InsertStmtNode, UpdateStmtNode, DeleteStmtNode"]}
{"id": "C259", "title": "LIKE on BYTES matches SQL patterns", "statement": "On BYTES, LIKE matches byte by byte: % stands for any bytes, _ for any one byte, a backslash makes the next byte stand for itself.", "quantifier": "all BYTES values and all patterns", "why_tests_cant": "Tests match strings; whether a pattern and a text of bytes agree depends on every byte of both.", "anchors": ["internal/function.go: LIKE", "internal/value.go: BytesValue.ToString", "internal/function_bind.go: bindLike"]}
{"id": "C260", "title": "A map given for a STRUCT parameter is that struct", "statement": "A Go map passed for a STRUCT parameter denotes the struct of the type whose fields have the values of the entries with their names, and NULL where there is no entry, in whatever order Go iterates over the map; this holds for maps inside slices and other maps as well.", "quantifier": "all maps, all orders of iteration, all STRUCT types, any nesting", "why_tests_cant": "Go chooses the order of a map at random at run time; a test sees a few orders of a few maps.", "anchors": ["internal/encoder.go: EncodeGoValue", "internal/encoder.go: valueFromGoReflectValue", "internal/encoder.go: CastValue"]}
{"id": "C261", "title": "A field of a JSON value is what its path selects", "statement": "json.name and json['name'] are the same for every JSON value and every name; they are the value that the path of the name selects, json[i] is the element at i, and NULL operands give NULL. JSON null stays JSON null.", "quantifier": "all JSON texts, names and positions, all behaviours of the JSON library that select values", "why_tests_cant": "Tests access a few fields of a few documents; names may need quoting and documents may have any shape.", "anchors": ["internal/function_json.go: JSON_FIELD", "internal/function_json.go: JSON_SUBSCRIPT", "internal/function_bind.go: bindJsonField", "internal/function_bind.go: bindSubscript"]}
{"id": "C262", "title": "Hash functions hash the bytes", "statement": "MD5, SHA1, SHA256, SHA512 and FARM_FINGERPRINT depend on the bytes of the argument only, for a STRING on its UTF-8 encoding: hashing a STRING and hashing its cast to BYTES agree. Results have a fixed length; the fingerprint is the INT64 with the same 64 bits; NULL gives NULL.", "quantifier": "all strings, all byte sequences, all hash functions", "why_tests_cant": "Tests compare a few known digests; agreement of both types and the conversion of large fingerprints concern every input.", "anchors": ["internal/function_hash.go: FARM_FINGERPRINT", "internal/function_hash.go: MD5", "internal/function_hash.go: SHA256", "internal/function_bind.go: bindFarmFingerprint", "internal/function_bind.go: bindMD5"]}
{"id": "C263", "title": "BYTES literals denote their bytes", "statement": "A BYTES literal of a query has the value of the bytes that it spells, whichever quotation marks the analyzer writes it with.", "quantifier": "all byte sequences, both kinds of quotation marks", "why_tests_cant": "Tests use a few literals of letters; quotation marks, backslashes and bytes that are no text need escapes that the code undoes.", "anchors": ["internal/encoder.go: bytesValueFromLiteral", "internal/encoder.go: ValueFromZetaSQLValue"]}
{"id": "C264", "title": "Mathematical functions refuse arguments outside their domain", "statement": "SQRT of a negative number, LN and LOG10 of a number that is not positive, ACOS and ASIN outside [-1, 1], ACOSH below 1, ATANH outside (-1, 1), EXP of a number whose exponential is too large, POW of a zero to a negative power and of a negative number to a power that is no integer report an error.", "quantifier": "all FLOAT64 arguments outside the domains", "why_tests_cant": "Tests call each function with one or two arguments inside its domain; the domain is a condition on all numbers.", "anchors": ["internal/function_math.go: SQRT", "internal/function_math.go: LN", "internal/function_math.go: LOG10", "internal/function_math.go: ACOS", "internal/function_math.go: ATANH", "internal/function_math.go: EXP", "internal/function_math.go: POW"]}
{"id": "C265", "title": "NORMALIZE gives a normal form", "statement": "NORMALIZE(s, form) gives equal texts exactly for texts that are equivalent under the form; applying it twice is applying it once; the form is NFC by default and an unknown one is an error.", "quantifier": "all texts and forms", "why_tests_cant": "Equivalence relates texts of any length; tests compare one accented letter.", "anchors": ["internal/function_string.go: NORMALIZE", "internal/function_bind.go: bindNormalize"]}
{"id": "C266", "title": "NORMALIZE_AND_CASEFOLD ignores case", "statement": "NORMALIZE_AND_CASEFOLD gives equal texts for texts with the same Unicode case folding, and its result has no upper case left.", "quantifier": "all texts and forms", "why_tests_cant": "Case folding is a table of 1,500 characters, some with several letters; tests compare ASCII texts.", "anchors": ["internal/function_string.go: NORMALIZE_AND_CASEFOLD", "internal/function_bind.go: bindNormalizeAndCasefold"]}
{"id": "C267", "title": "COLLATE makes comparisons ignore case", "statement": "Texts that differ in case only are equal under COLLATE(…, 'tag:ci'); the specifications 'binary' and 'tag:cs' keep comparisons as they are.", "quantifier": "all texts, tags and attributes", "why_tests_cant": "The specification is any text and the comparison relates any two texts; the tests only look at the text that is returned.", "anchors": ["internal/function_string.go: COLLATE", "internal/function_bind.go: bindCollate"]}
{"id": "C268", "title": "CONTAINS_SUBSTR finds texts", "statement": "CONTAINS_SUBSTR(s, t) is TRUE when s contains t after normalization and case folding, FALSE when it does not; a search text that is NULL is an error.", "quantifier": "all texts", "why_tests_cant": "The answer depends on every position of the text; the tests of the function are commented out.", "anchors": ["internal/function_string.go: CONTAINS_SUBSTR", "internal/function_bind.go: bindContainsSubstr"]}
{"id": "C269", "title": "Arrays and structs keep their FLOAT64 and JSON values", "statement": "A value made of FLOAT64, JSON, NULL, arrays and structs to any depth is read back from SQLite as it was written, with NaN and the infinities among the numbers.", "quantifier": "all nested values", "why_tests_cant": "Values nest to any depth; tests store short arrays of small numbers.", "anchors": ["internal/encoder.go: EncodeValue", "internal/encoder.go: valueLayoutFromValue", "internal/decoder.go: DecodeValue", "internal/decoder.go: decodeFromValueLayout"]}
{"id": "C270", "title": "DEFAULT in INSERT", "statement": "INSERT … VALUES inserts the values listed; DEFAULT among them stands for NULL, as no column has another default.", "quantifier": "all lists of rows", "why_tests_cant": "Any value of any row may be DEFAULT.", "anchors": ["internal/formatter.go: DMLDefaultNode.FormatSQL", "internal/formatter.go: InsertRowNode.FormatSQL", "internal/formatter.go: InsertStmtNode.FormatSQL"]}
{"id": "C271", "title": "SET assigns what it says", "statement": "Each item of SET in UPDATE sets its column, or the field of its column, to its value or to the default.", "quantifier": "all lists of items", "why_tests_cant": "Lists have any length and mix all kinds of items.", "anchors": ["internal/formatter.go: UpdateItemNode.FormatSQL", "internal/formatter.go: GetStructFieldNode.FormatSQL"]}
{"id": "C272", "title": "CAST of INT64 to NUMERIC loses nothing", "statement": "CAST and SAFE_CAST of an INT64 to NUMERIC or BIGNUMERIC is the same number, and casting that back to INT64 gives the same INT64.", "quantifier": "every INT64, both types, with and without SAFE", "why_tests_cant": "All INT64 values.", "anchors": ["internal/encoder.go: CastValue", "internal/value.go: IntValue.ToRat", "internal/value.go: NumericValue.ToInt64"]}
{"id": "C273", "title": "CAST between NUMERIC and BIGNUMERIC", "statement": "CAST of a NUMERIC to BIGNUMERIC changes nothing; CAST of a BIGNUMERIC to NUMERIC rounds to nine decimals, halves away from zero, and is an error if the result is out of range.", "quantifier": "every number", "why_tests_cant": "All numbers; rounding is visible only with more than nine decimals.", "anchors": ["internal/encoder.go: CastValue", "internal/value.go: NumericValue.ToRat"]}
{"id": "C274", "title": "Calls made once per statement are not noticed", "statement": "SQLite makes a call without columns once per statement because every function is registered as deterministic. For functions whose value depends on their arguments only, each row of a query is still what its expressions are worth for that row.", "quantifier": "every list of selected expressions with nested calls, all rows and all functions that depend on their arguments only", "why_tests_cant": "All expressions and all numbers of rows.", "anchors": ["internal/function_register.go: RegisterFunctions"]}
{"id": "C275", "title": "RAND and GENERATE_UUID give every row its own value", "statement": "In SELECT GENERATE_UUID() FROM t (or RAND()) the function is called for every row.", "quantifier": "every source of values and every number of rows", "why_tests_cant": "Tests of these functions select one row.", "anchors": ["internal/function_register.go: RegisterFunctions", "internal/function.go: GENERATE_UUID", "internal/function_math.go: RAND"]}
{"id": "C276", "title": "NOT NULL and PRIMARY KEY hold after every history", "statement": "Whatever statements are executed on a table, its columns declared NOT NULL have no NULL and no two of its rows have the same primary key.", "quantifier": "every table definition, created with columns or AS a query, and every history of statements", "why_tests_cant": "Depends on all statements executed so far.", "anchors": ["internal/spec.go: TableSpec.SQLiteSchema", "internal/spec.go: newTableAsSelectSpec"]}
{"id": "C277", "title": "FORMAT('%T', v) is a literal of v", "statement": "The text FORMAT('%T', v) is a SQL literal that denotes v, and NULL for a NULL.", "quantifier": "every value of the modelled types, arrays and tuples included", "why_tests_cant": "Every character, byte and nesting matters: escapes and quotation marks must be read back.", "anchors": ["internal/value.go: StringValue.Format", "internal/value.go: BytesValue.Format", "internal/value.go: TimestampValue.Format", "internal/function_format.go: parsePrintableString", "internal/function_bind.go: bindFormat"]}
{"id": "C278", "title": "FORMAT('%t', v) can be cast back", "statement": "CAST of the text FORMAT('%t', v) to the type of v gives v.", "quantifier": "every value of INT64, BOOL, STRING, BYTES, NUMERIC, BIGNUMERIC and the types of dates and times", "why_tests_cant": "Every value has another text.", "anchors": ["internal/value.go: StringValue.Format", "internal/value.go: BytesValue.Format", "internal/value.go: TimestampValue.Format", "internal/function_format.go: parsePrintableString"]}
{"id": "C279", "title": "Wildcard tables may have columns of any name", "statement": "A query of a wildcard table selects for each table the columns of the newest one, NULL for those the table does not have, whatever the columns are called.", "quantifier": "every newest table and every other table of the wildcard", "why_tests_cant": "Reserved words are rare in tests, and only columns that another table lacks are written without quotes.", "anchors": ["internal/wildcard_table.go: FormatSQL"]}
{"id": "C280", "title": "Entries of WITH may have any name", "statement": "A query with a WITH clause runs whatever its entries are called, as the names in the dialect allow, and reads each entry under its name.", "quantifier": "every name and every position in the WITH clause", "why_tests_cant": "Reserved words of SQLite that the dialect does not reserve (values, index, table, transaction, …) and names in backquotes are rare in tests.", "anchors": ["internal/formatter.go: WithEntryNode.FormatSQL, WithScanNode.FormatSQL"]}
{"id": "C281", "title": "CAST with FORMAT uses the format", "statement": "CAST of a DATE to STRING with a FORMAT clause gives the date in that format, CAST of a STRING to DATE reads that format, and CAST between BYTES and STRING uses the encoding the clause names.", "quantifier": "every value, every format and every time zone", "why_tests_cant": "Tests of CAST have no FORMAT clause; the clause is accepted, so only results show whether it is used.", "anchors": ["internal/formatter.go: CastNode.FormatSQL", "internal/function.go: CAST", "internal/analyzer.go: newAnalyzerOptions"]}
{"id": "C282", "title": "ORDER BY with COLLATE uses the collation", "statement": "ORDER BY x COLLATE 'und:ci' orders texts by the collation that is named; texts it does not tell apart are ties.", "quantifier": "every list of texts and every direction", "why_tests_cant": "Tests sort texts of one case; the clause is accepted, so only the order shows whether it is used.", "anchors": ["internal/formatter.go: OrderByScanNode.FormatSQL", "internal/function_register.go: zetasqlite_collate"]}
{"id": "C283", "title": "Types with parameters limit their values", "statement": "A column of type STRING(L), BYTES(L) or NUMERIC(P, S) never has a value that the type does not have, whatever statements are executed, and CAST to such a type gives a value of it or fails.", "quantifier": "every table, every history of statements and every value", "why_tests_cant": "A test has to insert a value that does not fit; the parameters are accepted, so nothing else shows that they are dropped.", "anchors": ["internal/spec.go: newColumnsFromDef", "internal/formatter.go: CastNode.FormatSQL"]}
{"id": "C284", "title": "GROUP BY tells different keys apart", "statement": "GROUP BY and SELECT DISTINCT put two rows into the same group if and only if their keys are equal (NULL being equal to NULL), for keys of every type that can be grouped: INT64, BOOL, FLOAT64, STRING, BYTES, NUMERIC, DATE, DATETIME, TIME and TIMESTAMP.", "quantifier": "every pair of values of one type, NULL included", "why_tests_cant": "The keys that are merged differ only after the second, after a NUL or are empty; a test has to hit such a pair.", "anchors": ["internal/function_register.go: zetasqlite_group_by", "internal/value.go: Interface methods", "internal/formatter.go: AggregateScanNode.FormatSQL"]}
{"id": "C285", "title": "Functions get the values they are called with", "statement": "A function called with a value computes what it is documented to compute for a value of that type: TO_JSON_STRING(TRUE) and FORMAT('%t', TRUE) are true, and TO_JSON_STRING(STRUCT(TRUE AS a, 1000000 AS b)) is the JSON object with those members.", "quantifier": "every value of a scalar type, every function of one argument, every struct made of scalars", "why_tests_cant": "Tests of a function in Go call it with a value of the right type; in SQL the value passes through SQLite, which has no BOOL, and through JSON, which has no INT64.", "anchors": ["internal/encoder.go: EncodeValue", "internal/decoder.go: DecodeValue", "internal/function_register.go: RegisterFunctions", "internal/function_json.go: TO_JSON_STRING, TO_JSON", "internal/function.go: MAKE_STRUCT"]}
{"id": "C286", "title": "Elements and fields keep their values", "statement": "An element of an array and a field of a struct are the values the array or the struct was made with: [9007199254740993][OFFSET(0)] is 9007199254740993.", "quantifier": "every array and struct of values of any depth, every position", "why_tests_cant": "A subscript of an array literal looks too simple to test with large numbers; but the array travels to the subscript through SQLite as JSON, whose numbers are read as FLOAT64.", "anchors": ["internal/encoder.go: EncodeValue", "internal/decoder.go: DecodeValue", "internal/function.go: ARRAY_SAFE_OFFSET, STRUCT_FIELD"]}
{"id": "C287", "title": "%c writes and reads moments as C does", "statement": "FORMAT_DATETIME with %c writes a moment as asctime of C does, as in Fri Dec  5 15:30:00 2008, and PARSE_DATETIME with %c reads such a text.", "quantifier": "every moment in whole seconds of the years 1 to 9999", "why_tests_cant": "The moments of the tests are on days of two digits.", "anchors": ["internal/function_time_parser.go: ansicParser, ansicFormatter"]}
{"id": "C288", "title": "SPLIT with an empty delimiter gives characters or bytes", "statement": "SPLIT(s, '') is the array of the characters of a STRING, SPLIT(b, b'') the array of the bytes of BYTES, and of an empty value the array of one empty piece.", "quantifier": "every STRING and every BYTES value", "why_tests_cant": "Tests with ASCII bytes cannot tell bytes from characters.", "anchors": ["internal/function_string.go: SPLIT"]}
{"id": "C289", "title": "CORR is Pearson's coefficient", "statement": "CORR(x, y) is the covariance of the rows without NULL divided by the root of the product of the variances; it lies between -1 and 1 and is 1 or -1 for rows on a rising or falling line.", "quantifier": "every list of rows of numbers and NULLs, in exact arithmetic", "why_tests_cant": "The bounds and the lines concern every list of rows.", "anchors": ["internal/function_aggregate.go: CORR"]}
{"id": "C290", "title": "Standard deviations are roots of variances", "statement": "STDDEV_POP and STDDEV_SAMP are the roots of the population and the sample variance of the values that are not NULL; they are 0 just if all values are the same, and NULL without values, the second also for a single one.", "quantifier": "every list of numbers and NULLs, in exact arithmetic", "why_tests_cant": "One list of numbers in a test says nothing about NULLs and equal values in others.", "anchors": ["internal/function_aggregate.go: STDDEV_POP, STDDEV_SAMP"]}
{"id": "C291", "title": "Standard deviations over frames", "statement": "STDDEV_POP and STDDEV_SAMP as analytic functions are the roots of the variances of the values of the frame, NULLs ignored.", "quantifier": "every table, partition, order and ROWS frame, in exact arithmetic", "why_tests_cant": "NULLs inside frames and partitions of one row are easily left out of tests.", "anchors": ["internal/function_window.go: WINDOW_STDDEV_POP, WINDOW_STDDEV_SAMP"]}
{"id": "C292", "title": "CORR over frames", "statement": "CORR(x, y) as an analytic function is Pearson's coefficient of the rows of the frame in which neither argument is NULL.", "quantifier": "every table, partition, order and ROWS frame, in exact arithmetic", "why_tests_cant": "NULLs inside windows are easily left out of tests.", "anchors": ["internal/function_window.go: WINDOW_CORR"]}
{"id": "C293", "title": "The difference of two times", "statement": "t1 - t2 on DATETIME and on TIMESTAMP is an interval of hours, minutes, seconds and nanoseconds that add up to the time between them; t2 + (t1 - t2) = t1 and t1 - (t1 - t2) = t2.", "quantifier": "all pairs of DATETIME or TIMESTAMP values of the years 1 to 9999", "why_tests_cant": "The failures are pairs that lie more than 292 years apart.", "anchors": ["internal/value.go: DatetimeValue.Sub, TimestampValue.Sub, DatetimeValue.Add, TimestampValue.Add"]}
{"id": "C294", "title": "Intervals can be compared", "statement": "=, <>, <, <=, > and >= compare two intervals by their length, with months of 30 days and days of 24 hours.", "quantifier": "all pairs of intervals", "why_tests_cant": "That no pair gives a wrong answer is a statement about all of them.", "anchors": ["internal/value.go: IntervalValue.EQ, LT, LTE, GT, GTE", "internal/function.go: EQ, NOT_EQ, LT, LTE, GT, GTE"]}
{"id": "C295", "title": "Connections opened with one name work on one database", "statement": "All connections that are opened with one data source name see the same tables and rows: a statement returns what it would return if the statements of all connections had been made on one connection in that order.", "quantifier": "all data source names and all histories of CREATE TABLE, INSERT, SELECT and DROP TABLE over any number of connections", "why_tests_cant": "A pool decides at run time which connection makes a statement; tests with one goroutine reuse one connection.", "anchors": ["driver.go: newDBAndCatalog, newZetaSQLiteConn", "internal/stmt_action.go: CreateTableStmtAction, DropStmtAction, QueryStmtAction, DMLStmtAction"]}
{"id": "C296", "title": "A database in memory begins empty and belongs to its connection", "statement": "A connection to :memory: has a database of its own: it has no tables when it is opened, no other connection changes what its statements return, and it is gone when the connection is closed.", "quantifier": "all histories of opening and closing any number of connections to :memory: and of CREATE TABLE, INSERT, SELECT and DROP TABLE on them", "why_tests_cant": "Which SQLite connection a new connection gets depends on everything opened and closed before in the process.", "anchors": ["driver.go: newDBAndCatalog, newZetaSQLiteConn, ZetaSQLiteConn.Close", "internal/catalog.go: Catalog.DeleteTableSpec"]}
