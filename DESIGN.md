# Formal model of goccy/go-zetasqlite

The model is written in Lean 4 under `lean/Verif/`.  It is hand-read from the Go
source in `/repo`; nothing was executed.  Every definition cites the file and
lines it models and names its simplifications.

## Conventions

* `Verif/Go/*`       — the part of the Go runtime and standard library the code
  relies on.  These are part of the trusted base: they model Go, not the repository.
* `Verif/Model/*`    — the repository's code, function by function.
* `Verif/Spec/*`     — small independent specifications used in theorem statements.
* `Verif/Lemmas/*`   — helper lemmas.
* `Verif/Props/*`    — the property theorems, one file per area, each with `example`s
  showing that its hypotheses are met by concrete non-trivial cases.

A Go call that can return an error or panic is modelled by
`Res α = ok a | err | panic`, so that panics are explicit outcomes.  SQL NULL (a
nil `Value`) is `Val.null`.

When a property is false of the code, `Cnn_full` states it in full, a theorem
`Cnn_full_false` refutes it with a concrete witness and the `…_partial` theorems
state what does hold, where possible as "right exactly when …".  Other
counterexamples have names ending in `_false` or `_counterexample`.  A claim is
`proved` only if the statement in `properties.jsonl` holds in full of the model.

`seeded/LOG.jsonl` records the wrong programs the theorems were tested against:
the definition edited, the edit, the claim it breaks, the theorems that no longer
compile, and the theorems tightened when a wrong program got through.

## Trusted base

* Lean's kernel, and at most the axioms `propext`, `Classical.choice` and
  `Quot.sound` (listed per theorem at the end).  No axioms are added; there is no
  `sorry`, `native_decide` or `bv_decide`.
* The reading of the Go source into `Verif/Model`.
* The models of the Go standard library and of third-party code in `Verif/Go`:
  - `Basic`: results, panics, 64-bit integers with wrap-around.
  - `Strconv`, `Hex`, `Base64`, `Utf8`, `Strings`: strconv, encoding/hex, encoding/base32,
    encoding/base64, unicode/utf8, strings and bytes, for the functions used.
  - `RatScan`: Rat.SetString of math/big with all its notations.
  - `Json`: the compact texts that github.com/goccy/go-json writes, read back; other texts
    are an error in the model where the library may accept them.
  - `Regexp`: literal characters and `.*` between `^` and `$` (LIKE, wildcard tables).
  - `RegexpEngine`: package regexp as a parameter with laws (matches are within the text and in order, groups
    within matches), and its template expansion; theorems hold for every such engine.
  - `Sort`: sort.Slice is any function that returns a sorted permutation.
  - `Float`: float64 values that are integers, with rounding to 53 bits; `F64`: all of binary64
    (`int64(x)` out of range as on amd64); `FloatText`: texts of integral float64 values.
  - `Calendar`, `Time`, `TimeText`: package time on unbounded integers; fixed-offset zones only; its range
    of 292 billion years is not modelled.  `Location`: zones with changing offsets (an offset for every moment, at most one
    change in 32 hours), time.Date in them, time.Local.
* Package database/sql: a pool that keeps up to two idle connections and gives any of them to the next that asks (`Pool`).
* SQLite and the binding go-sqlite3: one statement at a time, `ON CONFLICT` upsert,
  transactions that roll back, bound booleans stored as integers, the last registration of
  a function name counts, parameters numbered at their first occurrence, comparison of
  integers and texts, collations; its grammar and scoping of names in queries (`evalQ` in
  `Query`), INSERT, UPDATE, DELETE (`evalDml` in `Dml`), its tokens, CREATE TABLE, CREATE INDEX and column affinities (`Schema`).
* gonum `stat.Mean/Covariance/Variance/PopMeanVariance` as their formulas in exact arithmetic; the
  sketch library: an estimate is a function of the precision and the set of hashes (`Hll` in `Approx`).
* ZetaSQL's parser and analyzer (a C++ library behind cgo): taken as a source of resolved
  statements; names are looked up in lower case.

## What is modelled

| File in `/repo` | Modelled in | Not modelled |
|---|---|---|
| driver.go | `Driver`, `Cursors` (explain mode), `Memory` (which database a connection opens), `Pool` (opening and closing) | DSN options, the plan that is printed |
| context.go, internal/context.go | `Current` | the other context values |
| timestamp.go | `TimestampText` | |
| internal/name_path.go | `NamePath` | |
| internal/catalog.go, internal/conn.go | `Catalog`, `Concurrent` (several connections) | reading of malformed rows |
| internal/stmt_action.go | `Driver`, `Engine`, `Merge`, `Prepared`, `Schema` (indexes), `Dml` (CREATE TABLE … AS), `Result`, `Cursors` | – |
| internal/analyzer.go | `Params` (parameters), `Merge`, `Templated`, `Truncate` | the analyzer of ZetaSQL itself |
| internal/formatter.go | `Query` (the nodes of queries: tables, joins, filters, projections, aggregates with grouping sets, analytic functions, ORDER BY, LIMIT, set operations, WITH, arrays, subqueries), `Params`, `OrderBy`, `Window`, `Udf`, `Current` (the parts that matter there), `Dml` (INSERT, UPDATE, DELETE), `Keys` (their options, primary keys), `Assign` (DEFAULT, fields in SET), `Blank` (TABLESAMPLE, PIVOT, UNPIVOT), `WithText` (names of WITH), `CastFormat` (CAST with FORMAT), `OrderCollate` (ORDER BY … COLLATE) | the SQL text of the other nodes; the window frame, DISTINCT and IGNORE NULLS are part of an analytic function, an aggregate function that SQLite takes for one of an outer query has no value |
| internal/spec.go | `TypeSpec`, `Udf`, `Templated` (types of ANY TYPE functions), `Schema` (CREATE TABLE texts), `Dml` (CREATE TABLE … AS), `View`, `Constraints`, `TypeParams` (STRING(L), NUMERIC(P, S)) | – |
| internal/wildcard_table.go | `Wildcard`, `WildcardText` (the select lists) | names with other regular expression characters |
| internal/encoder.go, internal/decoder.go, internal/codec.go | `Codec`, `Cast`, `Literal`, `BytesLit`, `FloatCodec` (FLOAT64 and JSON in arrays and structs) | INTERVAL, GEOGRAPHY; Go maps with other keys than strings |
| internal/value.go | `Value`, `Arith`, `Numeric`, `Cast`, `Interval`, `Float`, `ToJson` (the ToJSON methods), `Printable` (the Format methods) | JSON values; texts of fractional FLOAT64 |
| internal/rows.go | `Rows`, `TimestampText`, `Cursors` | arrays cast to structs |
| internal/function_register.go | `Registry`, `FuncTable`, `Once` (every function is registered as deterministic), `GroupKey` (zetasqlite_group_by), `Args` (how arguments arrive) | |
| internal/function_bind.go | with the functions, `Nulls` (the checks for NULL of all of them), `WindowArgs` (arguments and options of window functions) | |
| internal/function.go | `Logic`, `Like`, `Arith`, `Bits`, `Arrays`, `Date`, `Cast`, `Structs` | JSON and GEOGRAPHY operators |
| internal/function_aggregate.go, function_aggregate_option.go | `Aggregate`, `AggCall` (which options a call makes; ARRAY_CONCAT_AGG), `FloatAgg` (SUM, AVG, MIN, MAX of FLOAT64), `Approx` (approximate aggregates; COVAR and VAR in exact arithmetic, with `Corr` for CORR and STDDEV; HLL over an abstract sketch) | floating point rounding of the statistical ones |
| internal/function_window.go, function_window_option.go | `Window`, `Numeric`, `WindowStat` (CUME_DIST, PERCENT_RANK, AVG on INT64, PERCENTILE_CONT/DISC with a FLOAT64 percentile), `WindowAgg` (COUNT, COUNTIF, SUM, STRING_AGG, ARRAY_AGG, ANY_VALUE, VAR_*, COVAR_*, with `WindowStddev` for STDDEV_* and CORR), `WindowArgs` (parsing of the options) | floating point rounding of the statistical ones |
| internal/function_date.go, _datetime.go, _time.go, _timestamp.go | `Date`, `Current`, `TimeFormat`, `Zoned` | the contents of the time zone database |
| internal/function_time_parser.go | `TimeFormat` | nothing; the ANSIC layout of `%c` is in `Go.Ansic` |
| internal/function_interval.go | `Interval` | bigquery.IntervalValue (a dependency) |
| internal/function_string.go | `Strings`, `Regexps`, `Words`, `Normalize` | the tables of Unicode: case, normal forms (parameters) |
| internal/function_format.go | `Format`, `Printable` (%t and %T) | conversions of floats and JSON |
| internal/function_array.go | `Arrays`, `Numeric` | |
| internal/function_bit.go | `Bits` | |
| internal/function_net.go | `Net`, `Netip` (text of IPv6 addresses), `NetHost` | url.Parse, the public suffix list (parameters) |
| internal/function_math.go | `Arith`, `Arrays`, `Float`, `NumericFuncs`, `MathFuncs` (the domains of SQRT, POW, EXP, LN, LOG10, ACOS, ASIN, ACOSH, ATANH) | ROUND (a third-party function), values of transcendental functions, the numbers RAND draws (how often it is called: `Once`) |
| internal/util.go | `TimeZone` | |
| internal/stmt.go | `Prepared` | – |
| internal/function_json.go | `ToJson` (TO_JSON, TO_JSON_STRING), `JsonFuncs`, `JsonField` | how a path is read and what it selects (the JSON library) |
| internal/function_numeric.go | `ParseNumeric` | |
| internal/function_javascript.go | `JavaScript` | the engine (a parameter); FLOAT64, JSON, INTERVAL, STRUCT |
| internal/function_hash.go, function_security.go | `Hash` | the hash functions themselves (parameters), SESSION_USER |
| internal/result.go | `Result` | LastInsertId |
| internal/node.go, error.go | – | wrappers without behaviour of their own |

General simplifications: strings are valid UTF-8 (lists of characters) unless a function works
on bytes; the process runs in the zone UTC (except in `Zoned`, which says what depends on it); FLOAT64, JSON and INTERVAL are not values of `Val` (`Float` has FLOAT64 on its own);
error texts are not modelled; the garbage collector and the memory model are not modelled
(concurrency: atomic steps under the mutexes of the code); FuncTable is generated from the source.

## Properties

| Id | Property | Theorems in | How it is proved | Status | What is missing |
|----|----------|-------------|------------------|--------|-----------------|
| C01 | Fully qualified names are not rewritten | `Props/NamePath` | case analysis on the lengths of path and base path | proved |  |
| C02 | Resolution only ever prepends leading base components | `Props/NamePath` | case analysis on the lengths of path and base path | proved |  |
| C03 | Resolving a resolved name changes nothing | `Props/NamePath` | case analysis on the lengths of path and base path | proved |  |
| C04 | Name-path configuration is atomic and bounded | `Props/NamePath` | induction on configuration histories; refuted by a history | partial | Setting the maximum after the base path does not check the base path; bounded when the maximum is set first. |
| C05 | Different qualified names denote different stored objects | `Props/NamePath` | refuted by two paths; injectivity of joining when no component has the separator | partial | The full statement is false of the code (underscores collide). |
| C06 | Catalog changes reported by a connection are the net effect | `Props/Changed` | invariant by induction on events, refinement to the last event per name | partial | False when a nil function entry is recorded; proved for histories without one. |
| C07 | Lookups see the latest definition | `Props/Catalog`, `Props/CatalogLives` | refinement of lists, maps and stored rows to the definitions each name has been given since its last drop, by induction on histories and interleavings; refutations by short histories | partial | False after CREATE OR REPLACE FUNCTION. Exact for every history in which tables and functions do not share names, with names created again: queries use the oldest definition since the last drop (iff for being the latest one). The analyzer lookup is stated for paths of one length. |
| C08 | Dropping one object leaves every other object alone | `Props/Catalog`, `Props/CatalogLives` | refinement of lists, maps and stored rows to the definitions each name has been given since its last drop, by induction on histories and interleavings; refutations by short histories | partial | False after a replace (drop of another object reverts the looked-up definition of a replaced table) and for shared names. Exact for every history in which tables and functions do not share names. |
| C09 | A reopened database has the same catalog | `Props/Catalog`, `Props/CatalogLives` | refinement of lists, maps and stored rows to the definitions each name has been given since its last drop, by induction on histories and interleavings; refutations by short histories | partial | False when a table and a function share a name or after a replace. Exact for every history without shared names: a reopened database has the latest permanent definition of every name. |
| C10 | Temporary objects are never persisted | `Props/Catalog` | refinement of lists, maps and stored rows to the definitions each name has been given since its last drop, by induction on histories and interleavings; refutations by short histories | proved |  |
| C11 | Other processes eventually see every change | `Props/Catalog`, `Props/CatalogOther` | refinement of lists, maps and stored rows to the definitions each name has been given since its last drop, by induction on histories and interleavings; refutations by short histories | partial | False for drops and replaced functions. For create-only histories the views are equal; for every interleaving without shared names a Sync succeeds, every permanent object is seen (tables with the latest definition), and nothing is seen that was not a definition of that name. |
| C12 | Exec runs statements in order and stops at the first failure | `Props/Driver` | induction on the list of actions with arbitrary outcomes | proved |  |
| C13 | Temporary objects do not outlive their Exec/Query | `Props/Driver` | induction on the list of actions with arbitrary outcomes | partial | Proved for Exec; for Query the cleanup depends on the caller closing rows and is skipped when a later statement fails. |
| C14 | Statements run inside the open transaction | `Props/Driver` | induction on the list of actions with arbitrary outcomes | proved |  |
| C15 | Rolling back undoes catalog changes | `Props/Catalog`, `Props/CatalogLives` | induction on the list of actions with arbitrary outcomes | partial | The in-memory catalog is not rolled back; a reopened database is. |
| C16 | One database and catalog per DSN | `Props/Driver` | invariant of an interleaving of atomic steps, over all schedules | proved |  |
| C17 | Named parameters are bound by name | `Props/Params`, `Props/ParamsExact` | permutation and list arguments; refuted by two-statement scripts | partial | A missing name is not an error but NULL, unless there are fewer values than parameters (C17_full_false); C17_exact states what every statement receives and C17_iff exactly when that is right. |
| C18 | Positional parameters are bound by position | `Props/Params` | permutation and list arguments; refuted by two-statement scripts | partial | False for several statements and for ? inside IFNULL. Exact (C18_iff): values that differ reach the ?s of a script in order if and only if no ? is in the first argument of IFNULL and all statements with a ? before the last such one are CREATE TABLE. |
| C19 | Storage encoding is lossless | `Props/Codec` | structural induction over nested values: base64, UTF-8 and JSON are read back | partial | Numbers inside arrays and structs are read back as FLOAT64: right exactly when every nested INT64 is a FLOAT64 number. FLOAT64 and JSON: C269. INTERVAL values are not in the model. |
| C20 | Storage encoding is injective on NULL and never confuses types | `Props/Codec` | structural induction over nested values: base64, UTF-8 and JSON are read back | partial | Only NULL is stored as NULL. The type is kept exactly when the value is not a BOOL (SQLite stores an integer) and has no nested INT64 (read back as FLOAT64). |
| C21 | TIMESTAMP results convert back exactly | `Props/TimestampText` | decimal text is read back, by induction on digits | proved |  |
| C22 | Timestamp text is read as a decimal number of seconds | `Props/TimestampText`, `Props/TimestampExact` | decimal text is read back, by induction on digits | partial | False for fractions shorter than six digits and for negative numbers; C22_exact and C22_iff state exactly which texts come back right. |
| C23 | AND, OR and NOT follow three-valued logic | `Props/Logic` | case analysis, induction over operand lists | proved |  |
| C24 | Comparison operators return NULL exactly on NULL operands | `Props/Logic` | case analysis, induction over operand lists | partial | Proved for all modelled scalar types and for equality of NULL-free nested values; arrays/structs containing NULL or with differing field names panic. BOOLs can only be compared for equality. FLOAT64: C166. |
| C25 | IS [NOT] DISTINCT FROM is never NULL | `Props/Logic` | case analysis, induction over operand lists | proved |  |
| C26 | IN follows SQL NULL semantics | `Props/Logic`, `Props/LogicExact` | case analysis, induction over operand lists | partial | False when no element matches and the list contains NULL; C26_in_iff and C26_unnest_iff state exactly when the answer is right. |
| C27 | Conditional functions pick the right operand | `Props/Logic`, `Props/LogicExact` | case analysis, induction over operand lists | partial | NULLIF with a NULL second operand panics; everything else proved. |
| C28 | BETWEEN is two comparisons | `Props/Logic`, `Props/LogicExact` | case analysis, induction over operand lists | partial | False on NULL operands (FALSE instead of NULL); C28_iff states exactly when the answer is right. |
| C29 | LIKE matches SQL patterns | `Props/Like`, `Props/LikeExact`, `Props/LikeBytes` | the expression the code builds is matched as an inductive relation on patterns | partial | Exact: % is any text without a line break, every other character stands for itself. Without escapes every match is right; a pattern is right for all texts if and only if it has no %, _ or escape, and for all texts of one line if and only if it has no _ or escape. With a NULL operand it is FALSE instead of NULL (C29_null). |
| C30 | INT64 arithmetic is exact or an error | `Props/Arith` | integer arithmetic modulo 2^64 | partial | False on overflow (wraps) and above 2^53 for the functions that go through float64; the exact ranges of correctness are proved. |
| C31 | SAFE. prefix turns errors into NULL and nothing else | `Props/Registry` | the registration table, by evaluation of its finitely many names, for arbitrary function bodies | partial | The wrapper is right; six SAFE_ names are registered twice and the winner depends on map iteration order. |
| C32 | ORDER BY orders consistently | `Props/OrderBy` | lexicographic comparison is a total preorder agreeing with the type order | proved | All modelled scalar types (FLOAT64: C166). |
| C33 | Aggregates ignore row order | `Props/Aggregate` | fold invariants, permutation invariance, arbitrary sorter | partial | False for BIT_OR/BIT_XOR; proved for COUNT, COUNTIF, SUM, AVG, MIN, MAX, BIT_AND, LOGICAL_AND/OR (FLOAT64: C235 to C237). |
| C34 | Aggregates compute their mathematical definition over non-NULL inputs | `Props/Aggregate` | fold invariants, permutation invariance, arbitrary sorter | partial | SUM/AVG of INT64 wrap silently; everything else proved. FLOAT64: C235 to C237. |
| C35 | Bitwise and logical aggregates compute their definition | `Props/Aggregate` | fold invariants, permutation invariance, arbitrary sorter | partial | None is NULL on empty input; BIT_OR/BIT_XOR restart at -1/1; exact ranges of correctness proved. |
| C36 | DISTINCT and IGNORE NULLS feed each value once | `Props/AggOptions` | fold invariants, permutation invariance, arbitrary sorter | partial | Proved for every aggregate with one argument whose type has distinct texts (INT64, BOOL, STRING, BYTES instances given). IGNORE NULLS with two arguments shifts them. |
| C37 | ARRAY_AGG/STRING_AGG keep, order and limit inputs | `Props/AggOptions`, `Props/NullKeys` | fold invariants, permutation invariance, arbitrary sorter | partial | NUMERIC keys sort as text and an empty delimiter becomes a comma; proved for BOOL, STRING and INT64 (to 2^53) keys without NULL. |
| C38 | User data is never taken for aggregate options | `Props/AggOptions`, `Props/NullKeys`, `Props/WindowArgs` | fold invariants, permutation invariance, arbitrary sorter | partial | A user string equal to an option text is swallowed, and a window function of one argument then panics; proved for NULL, INT64, BOOL, BYTES and strings not starting with a brace, for aggregates and for window functions. |
| C39 | ROW_NUMBER numbers every partition 1..n | `Props/Window`, `Props/NullKeys` | induction over rows, counting specifications, arbitrary sorter | partial | PARTITION BY NULL panics; numbering 1..n proved for partitions told apart by their texts, the order for non-NULL keys (INT64 within 2^53). |
| C40 | RANK and DENSE_RANK count smaller rows | `Props/WindowRank`, `Props/WindowRankExact` | induction over rows, counting specifications, arbitrary sorter | partial | Keys are compared as INT64 from a start value of 0: false for zero, negative and non-integer keys. Exact for one INT64 key within 2^53: in descending order always right; in ascending order RANK is right exactly for the rows with a positive key (the others get 0), DENSE_RANK exactly in the partitions whose keys are all positive. |
| C41 | NTILE splits a partition evenly | `Props/WindowNav` | induction over rows, counting specifications, arbitrary sorter | partial | Right exactly when the partition has at most k+1 rows: both directions proved. |
| C42 | ROWS frames contain exactly the rows between the bounds | `Props/Window`, `Props/WindowRowsExact` | induction over rows, counting specifications, arbitrary sorter | partial | A reversed frame is a slice panic instead of empty; C42_exact and C42_iff state exactly which frames are right. |
| C43 | RANGE frames contain exactly the rows within the value bounds | `Props/WindowRange`, `Props/WindowRangeExact` | induction over rows, counting specifications, arbitrary sorter | partial | On one ascending INT64 key: right for PRECEDING starts with CURRENT/FOLLOWING ends; a start of CURRENT ROW or n FOLLOWING, and an end of n PRECEDING, are right exactly if one row alone has the key of that bound (iff). |
| C44 | Navigation functions address rows by position | `Props/WindowNav`, `Props/WindowNavExact` | induction over rows, counting specifications, arbitrary sorter | partial | LEAD/LAG replace a NULL target by the default, NTH_VALUE misses the last row, NULLs are skipped by default; C44_iff states exactly when each is right over ROWS frames (NTH_VALUE where the null handling is written). |
| C45 | Rows of different partitions never mix | `Props/Window` | induction over rows, counting specifications, arbitrary sorter | partial | NULL panics, texts are joined with underscores and INT64 values above 2^53 collide; proved for one STRING column, for any number of INT64 columns with values exact in FLOAT64 and for columns with injective underscore-free texts. |
| C46 | Day arithmetic on dates is exact and invertible | `Props/DateArith` | bijection of day numbers and civil dates for all years; integer division | partial | DATE_DIFF in days saturates beyond 106752 days and DATE_FROM_UNIX_DATE wraps beyond 106751 days; both ranges are proved exact. Addition, subtraction and UNIX_DATE are proved for all dates. |
| C47 | Month and year arithmetic clamps to the end of the month | `Props/DateArith` | bijection of day numbers and civil dates for all years; integer division | partial | Months and years proved for all dates; DATE_ADD ignores the amount for quarters and DATE_SUB has none. |
| C48 | DATE_TRUNC returns the start of the period | `Props/DateTrunc` | bijection of day numbers and civil dates for all years; integer division | partial | DAY, WEEK(any day), MONTH, QUARTER, YEAR proved; ISOWEEK is wrong for every date, ISOYEAR exactly when 1 January is a Friday or Saturday. |
| C49 | LAST_DAY returns the end of the period | `Props/DateTrunc` | bijection of day numbers and civil dates for all years; integer division | partial | YEAR, MONTH, WEEK proved; WEEK(day) exactly when the weekday is not before the start; ISOWEEK never; QUARTER is an error. |
| C50 | DATE_DIFF counts boundaries | `Props/DateDiff` | bijection of day numbers and civil dates for all years; integer division | partial | WEEK(any day), MONTH, YEAR, ISOYEAR proved for all pairs; DAY exactly up to 106752 days; ISOWEEK within a year (exactly when the ISO years begin 48 weeks apart for each year); QUARTER is an error. |
| C51 | EXTRACT agrees with the calendar | `Props/DateFields`, `Spec/Calendar` | bijection of day numbers and civil dates for all years; integer division | partial | All fields proved but QUARTER (wrong exactly on three dates) and WEEK. |
| C52 | Sub-day truncation keeps exactly the higher fields | `Props/DateFields` | bijection of day numbers and civil dates for all years; integer division | partial | TIMESTAMP_TRUNC proved; DATETIME_TRUNC/TIME_TRUNC drop too much for MILLISECOND and SECOND (exact condition proved). |
| C53 | Unix conversions are inverse | `Props/DateFields` | bijection of day numbers and civil dates for all years; integer division | partial | TIMESTAMP_MILLIS wraps when the microseconds do not fit; everything else proved. |
| C54 | Parsing what was formatted gives the value back | `Props/TimeFormat`, `Props/TimeZoneText` | induction over the pieces of the format: the fields known so far are an invariant of the loop | partial | A year written after the day moves 29 February, and text that does not match is accepted; right with year, month and day in this order. |
| C55 | Fixed UTC offsets denote the offset they spell | `Props/TimeZone` | arithmetic; invariant of the cache | partial | An offset is right exactly when it is positive or has no minutes; a database name containing +dd or -dd is taken as an offset. The answer never depends on the zones used before (cache transparency). |
| C56 | Interval justification preserves the interval | `Props/Interval` | arithmetic | partial | The total is lost exactly when 60 or more minutes are carried downwards; months above 23 are left out of range. Proved for fields up to 10^9. |
| C57 | SUBSTR selects characters by position | `Props/StringCut` | list lemmas; UTF-8 is self-synchronising | partial | BYTES proved in full. A STRING is cut by bytes at positions counted in characters: right for all positions if and only if the string is ASCII, and for each position if the characters up to the end of the cut are. |
| C58 | LEFT/RIGHT/LPAD/RPAD/REPEAT/REVERSE have the documented length and content | `Props/StringCut` | list lemmas; UTF-8 is self-synchronising | partial | LEFT, RIGHT, REVERSE and padding a STRING proved; padding BYTES panics exactly when the pattern is at least as long as what is missing; negative counts panic in REPEAT and LPAD. |
| C59 | TRIM removes exactly the outer characters of the set | `Props/StringTrim`, `Props/StringTrimText` | list lemmas; UTF-8 is self-synchronising | partial | STRING proved in full. LTRIM/RTRIM of BYTES use the base64 text of the set; TRIM of BYTES proved for sets of bytes below 128 and for texts of any characters; bytes of no character are taken for U+FFFD. |
| C60 | SPLIT and ARRAY_TO_STRING are inverse | `Props/StringSplit` | list lemmas; UTF-8 is self-synchronising | proved |  |
| C61 | Text encodings round-trip | `Props/StringText` | list lemmas; UTF-8 is self-synchronising | partial | CODE_POINTS_TO_STRING loses exactly the NUL characters; everything else proved. |
| C62 | TRANSLATE maps each character once | `Props/Translate` | list lemmas; UTF-8 is self-synchronising | partial | The translations are applied one after the other: right exactly when no character is translated into one translated later. Characters that are not ASCII are taken apart. |
| C63 | STRPOS/INSTR find the first occurrence | `Props/StringSearch` | list lemmas; UTF-8 is self-synchronising | partial | STRPOS of BYTES proved; of a STRING right exactly when the text before the first occurrence is ASCII. INSTR without a position is always an error; of BYTES and of ASCII texts it is right from positions in front of the last one. |
| C64 | Array subscripts are bounds-checked | `Props/Arrays` | list lemmas; termination measure and non-termination by invariant | partial | Proved of the functions for every array they are given. On the way to them through SQLite INT64 elements beyond 2^53 may change; C286 says which. |
| C65 | GENERATE_ARRAY terminates with the arithmetic progression | `Props/Arrays` | list lemmas; termination measure and non-termination by invariant | partial | Right exactly when the value after the last fits into 64 bits and it is not one value with a negative step; up to the largest INT64 it never returns. |
| C66 | Array functions preserve elements | `Props/Arrays` | list lemmas; termination measure and non-termination by invariant | proved | A NULL in place of an array panics. About the arrays the functions are given; for what INT64 elements beyond 2^53 become on the way see C286. |
| C67 | RANGE_BUCKET counts boundaries | `Props/Bucket` | list lemmas; termination measure and non-termination by invariant | proved | For all types of the model (FLOAT64 is not in it). |
| C68 | IP address functions round-trip and mask | `Props/Net` | bit-level lemmas on naturals | proved | The text form of 16-byte addresses is the subject of C224 and C225. |
| C69 | Bit shifts and BIT_COUNT | `Props/Bits` | bit-level lemmas on naturals | partial | A negative count panics and right shifts of negative numbers keep the sign; everything else is proved. |
| C70 | NUMERIC arithmetic is exact and pure | `Props/Numeric` | heap of mutable numbers; refuted by aliasing | partial | Results are exact, but the receiver is modified (visible in GENERATE_ARRAY and RANGE frames over NUMERIC) and division by zero panics. |
| C71 | FORMAT consumes one argument per directive | `Props/Format` | induction over the format; over the digits | partial | Arguments that remain are ignored and %.* is never accepted; right otherwise. |
| C72 | Thousands separators group digits by three | `Props/Format` | induction over the format; over the digits | partial | Right exactly unless a negative number has a number of digits divisible by three. |
| C73 | Wildcard tables select by prefix | `Props/Wildcard` | the expression matches exactly the names with the prefix | partial | The prefix is an unanchored regular expression over underscore names: other tables may be read, and a table named like the prefix makes the query fail; right when no table name agrees with the prefix by accident. |
| C74 | SQL UDF calls substitute arguments hygienically | `Props/Udf` | refuted by substitution into an argument | partial | Textual replacement: wrong when an earlier parameter name starts a later one or an argument mentions a later parameter; right otherwise. |
| C75 | Column types survive the catalog | `Props/TypeSpec` | structural induction over types: the JSON text is read back | proved |  |
| C76 | The fixed current time is used everywhere | `Props/Current` | case analysis on arguments | partial | With WithCurrentTime every call with a zone is an error; right without a zone from 1677 to 2262. |
| C77 | Integer results are never silently narrowed | `Props/Rows` | case analysis on the destination | proved |  |
| C78 | Temporary objects never destroy permanent ones | `Props/Engine` | induction over the actions of a call, with the catalog invariant of C07–C10 | partial | False of the code: a TEMP create over an existing permanent object destroys it. |
| C79 | DROP IF EXISTS of a missing object is a no-op | `Props/Engine` | induction over the actions of a call, with the catalog invariant of C07–C10 | partial | False of the code: DROP IF EXISTS of a missing table reports an error (but changes nothing). |
| C80 | Preparing a statement has no effect | `Props/Engine` | induction over the actions of a call, with the catalog invariant of C07–C10 | partial | Exact: preparing has an effect if and only if the statement is CREATE OR REPLACE and the object is there; the object is then gone. |
| C81 | A call leaves exactly the permanent objects created before its first failure | `Props/EngineScripts`, `Props/Engine`, `Props/EngineCalls` | induction over the actions of a call, with the catalog invariant of C07–C10 | partial | False: dropping a temporary table in the script that made it returns an error, temporary objects destroy permanent ones (C78), DROP IF EXISTS of a missing table fails (C79). C81_exact_partial says exactly what every history of calls leaves and which calls fail, with OR REPLACE, IF NOT EXISTS, temporary objects over permanent ones and failing statements; the others are consequences for a user. Missing: a table and a function under one name (C08). |
| C82 | The change record of a call is what the call left behind | `Props/Engine` | induction over the actions of a call, with the catalog invariant of C07–C10 | partial | False for temporary functions; proved for scripts without them (free names, no drops). |
| C83 | Sub-day arithmetic is exact and invertible | `Props/DateFields` | integer arithmetic, calendar lemmas | partial | Right exactly when the amount is below 2^63 ns. |
| C84 | INTERVAL keeps its amount | `Props/Interval` | integer arithmetic, calendar lemmas | partial | Right exactly for 32-bit amounts. |
| C85 | Adding an INTERVAL to a date or time | `Props/Interval` | integer arithmetic, calendar lemmas | partial | Days and time proved; months exactly when the day exists in the month reached. |
| C86 | The difference of two dates counts the days | `Props/Interval` | integer arithmetic, calendar lemmas | partial | Right exactly up to 106751 days. |
| C87 | REPLACE replaces from left to right | `Props/StringSplit` | list lemmas | partial | Exact: proved for a non-empty from; with an empty one the replacement is inserted everywhere, so right if and only if it is empty too. |
| C88 | Generated date and timestamp arrays | `Props/DateArrays` | loop invariant | partial | A single value with a negative step is lost, months overflow at the end of the month, QUARTER counts days; proved outside these cases (timestamps for steps below 2^63 ns). |
| C89 | GREATEST and LEAST are the extremes | `Props/Bucket` | list and bit lemmas | proved | For all types of the model (FLOAT64 is not in it). |
| C90 | Bitwise operators act on every bit | `Props/Bits` | list and bit lemmas | proved |  |
| C91 | Set operations see duplicates exactly where there are some | `Props/Codec` | list and bit lemmas | proved | For all types of the model. |
| C92 | Truncation to days and longer gives the start of the period | `Props/TruncLong` | list and bit lemmas | partial | ISO parts inherit the faults of DATE_TRUNC; DATETIME_TRUNC to WEEK keeps the time of day; everything else proved. |
| C93 | ARRAY_TO_STRING and NULL elements | `Props/StringSplit` | list and bit lemmas | proved | For arrays of STRING. |
| C94 | CAST to STRING and back is the identity | `Props/Cast` | printers are read back; iff-characterisations of the accepted texts | proved | For the scalar types of the model (FLOAT64, JSON and INTERVAL are not in it). |
| C95 | STRING and BYTES are converted as UTF-8 | `Props/Cast` | printers are read back; iff-characterisations of the accepted texts | partial | BYTES to STRING gives the base64 form: right exactly for the empty text. STRING to BYTES is right. |
| C96 | CAST of text to INT64 accepts exactly the integers | `Props/Cast` | printers are read back; iff-characterisations of the accepted texts | partial | Exact: right for every text but the empty one, which is 0, and hexadecimal numbers grouped by underscores, which are accepted (iff). |
| C97 | CAST of NUMERIC to INT64 rounds | `Props/Cast` | printers are read back; iff-characterisations of the accepted texts | partial | The result is the numerator: right exactly for integers and one half. |
| C98 | The text of a NUMERIC is its decimal form | `Props/Cast` | printers are read back; iff-characterisations of the accepted texts | proved |  |
| C99 | SAFE_CAST is CAST with errors replaced by NULL | `Props/Cast` | printers are read back; iff-characterisations of the accepted texts | proved |  |
| C100 | INT64 and BOOL are converted as in SQL | `Props/Cast` | printers are read back; iff-characterisations of the accepted texts | partial | INT64 to BOOL is an error except for 0 and 1. |
| C101 | CAST keeps NULL and works on arrays element by element | `Props/Cast` | printers are read back; iff-characterisations of the accepted texts | proved |  |
| C102 | CAST between struct types works by position | `Props/Cast` | printers are read back; iff-characterisations of the accepted texts | partial | Fields are matched by name and structs without names are not cast; right when the names are distinct and the same. Cast to a type without any of its names, a struct loses all of its values (C102_renamed). |
| C103 | Conversions between DATE, DATETIME, TIME and TIMESTAMP | `Props/Cast` | printers are read back; iff-characterisations of the accepted texts | proved | In UTC; values as stored and read back by the next function. |
| C104 | CAST of text to BOOL accepts true and false only | `Props/Cast` | printers are read back; iff-characterisations of the accepted texts | partial | Right exactly outside seven texts that are accepted and the mixtures of cases that are rejected. |
| C105 | CAST of text to NUMERIC accepts numbers only | `Props/Cast`, `Props/ParseNumeric` | printers are read back; iff-characterisations of the accepted texts | partial | Decimal texts (with at most a million digits after the point) are right; no text is an error. For every text without the characters / _ b o x p the result is known exactly: the number of the literal, exponents included, or else the number written by the digits the text begins with, sign and point dropped. |
| C106 | CAST of text to DATE accepts days only | `Props/Cast` | printers are read back; iff-characterisations of the accepted texts | partial | Right for every text of the shape of a date; the texts for which it is wrong are exactly those of other shapes that are accepted (times and timestamps). |
| C107 | Results of scalar types determine the values | `Props/Rows` | structural induction over types | proved | FLOAT64, JSON and INTERVAL are not in the model. |
| C108 | Arrays are returned element by element | `Props/Rows`, `Props/RowsInts` | structural induction over types | partial | INT64 elements pass through FLOAT64: arrays of INT64 are right exactly if it can represent every element (C108_ints says what is read otherwise). |
| C109 | Structs are returned field by field | `Props/Rows` | structural induction over types | partial | NUMERIC fields are fractions, TIMESTAMP fields lose the fraction of a second, BYTES are raw, INT64 fields without names are FLOAT64; right for the other scalar types. |
| C110 | Literals denote their moments | `Props/Literal` | bit fields of naturals, calendar lemmas | proved |  |
| C111 | Parameters have the values of the Go arguments | `Props/Literal` | structural induction over Go values | partial | A nil pointer panics and unsigned numbers beyond INT64 wrap around; right otherwise. |
| C112 | One current time per query | `Props/Current` | case analysis on the context | partial | Right with WithCurrentTime; without it every call reads the clock (once per place in the text for all rows: C275_once_partial). |
| C113 | FORMAT pads to the width | `Props/Format` | length and sign of the decimal text | partial | Numbers are padded, texts are not. |
| C114 | FORMAT signs numbers | `Props/Format` | length and sign of the decimal text | partial | %+d is right exactly for n other than 0, % d exactly for n not negative. |
| C115 | Formats compose | `Props/TimeElements` | step lemmas of the formatter | partial | The character after a combination such as %E3S is lost; right otherwise. |
| C116 | Format elements of the clock | `Props/TimeElements` | two-digit texts are injective; calendar lemmas | partial | %I is right exactly at the hours 1 to 12, %l exactly at hours other than 0 and 12; the others are right. |
| C117 | Format elements of the calendar | `Props/TimeElements` | two-digit texts are injective; calendar lemmas | partial | %m %d %F %y are right; each of the others exactly on the days given by the theorem. |
| C118 | Fractions of a second survive formatting and parsing | `Props/TimeElements` | the invariant of C54 and the text of fractions | proved |  |
| C119 | Parsing the 12-hour clock | `Props/TimeElements` | step lemmas of the parser | proved |  |
| C120 | MERGE does what its clauses say | `Props/Merge` | key columns of the merged table; case analysis on the clauses | partial | AND conditions are ignored, NOT MATCHED BY SOURCE never fires, source rows with NULL keys are not inserted, UPDATE may read the wrong row, a target name inside the source text changes the source instead; right for tables of the same layout, clauses without condition (one per kind) and values both rows give alike. |
| C121 | A MERGE that fails has no effect | `Props/Merge` | induction over the statements | partial | The clauses before the failure stay, and no MERGE succeeds afterwards; a MERGE without failure is complete. |
| C122 | BEGIN and COMMIT in a script make a transaction | `Props/Prepared` | induction over the script, for any saved state | partial | BEGIN and COMMIT do nothing; right for scripts that do not fail. |
| C123 | Prepared statements behave like direct ones | `Props/Prepared` | induction over the script and the arguments | partial | CREATE TABLE and VIEW always fail, DROP, TRUNCATE, MERGE, BEGIN and COMMIT panic, scripts run only their last statement, names are refused; right for INSERT, UPDATE, DELETE and queries with unnamed arguments. |
| C124 | Preparing has no effect | `Props/Prepared` | induction over the script and the arguments | partial | Exactly the tables of CREATE OR REPLACE are removed by preparing. |
| C125 | FORMAT in other bases | `Props/Format` | induction over the digits | proved |  |
| C126 | CAST of text with a zone to TIMESTAMP | `Props/Cast` | step lemmas of the parser | proved |  |
| C127 | %Ez gives timestamps back | `Props/TimeZoneText` | the invariant of C54; the text of offsets is read back | partial | Right exactly for offsets of whole minutes; seconds of the offset are lost. |
| C128 | Unix seconds in formats | `Props/TimeZoneText` | length of the decimal text | partial | The text is right; it is read back exactly when it has ten digits (2001 to 2286). |
| C129 | Names of weekdays and months | `Props/TimeZoneText` | case analysis, calendar lemmas, step lemmas of the parser | proved |  |
| C130 | Years of two digits | `Props/TimeZoneText` | case analysis, calendar lemmas, step lemmas of the parser | proved |  |
| C131 | Days of the year | `Props/TimeZoneText` | case analysis, calendar lemmas, step lemmas of the parser | partial | The 366th day of a year of 365 is read as its first; C131_partial is an exact equivalence. |
| C132 | Text that goes on after the format is an error | `Props/TimeZoneText` | induction over the format | proved |  |
| C133 | Format elements of other types are errors | `Props/TimeZoneText` | induction over the format | proved |  |
| C134 | Queries are translated faithfully | `Props/Query` | mutual induction over scans and expressions: the text of each parses to a query with the rows of the scan, for all large enough fuel; witnesses evaluated | partial | Proved for every query whose parts are right (okS): excluded are inputs which the formatter appends clauses to without parentheses, and what C135 to C140 refute. |
| C135 | WHERE on a subquery | `Props/Query` | instances of C134; syntax errors by invariants of the parser | partial | WHERE on a subquery with LIMIT is a syntax error of SQLite. |
| C136 | Joins are translated faithfully | `Props/Query` | instances of C134; syntax errors by invariants of the parser | partial | A join whose right input is a join loses its parentheses. |
| C137 | LEFT JOIN UNNEST keeps all rows | `Props/QueryMore` | instances of C134; syntax errors by invariants of the parser | partial | LEFT JOIN UNNEST without ON drops the rows with an empty array. |
| C138 | HAVING | `Props/QueryMore` | instances of C134; syntax errors by invariants of the parser | partial | HAVING without GROUP BY is written as WHERE on the aggregate, which SQLite rejects. |
| C139 | Set operations are translated faithfully | `Props/QuerySets` | instances of C134; syntax errors by invariants of the parser; witnesses evaluated | partial | INTERSECT ALL and EXCEPT ALL are always an error, and a column that the first query yields twice makes the result repeat it; right for the other operations without such columns. |
| C140 | WITH | `Props/QuerySets` | instances of C134; syntax errors by invariants of the parser; witnesses evaluated | partial | A WITH query with the name of a table that the statement reads stands for it everywhere, and a WITH clause directly after another is a syntax error; right otherwise. |
| C141 | Scalar subqueries | `Props/QuerySets` | instances of C134; syntax errors by invariants of the parser; witnesses evaluated | partial | A subquery with more than one row has the value of the first; right for subqueries with at most one row. |
| C142 | Columns of a query are never confused | `Props/QueryNames` | the last # splits a name | proved |  |
| C143 | CREATE TABLE creates the table it describes | `Props/Schema` | the tokens of the text by composition over its parts; refuted names evaluated; exact condition for one name by counting | partial | Names with a backquote or NUL and primary keys whose names need quotes are not written correctly; right for all others. |
| C144 | ORDER BY orders the result | `Props/QueryOrder` | C134 and the meaning of the scan: sorting, eraseDups and filtering lemmas, induction over the inputs | proved |  |
| C145 | LIMIT and OFFSET | `Props/QueryRows` | C134 and the meaning of the scan: sorting, eraseDups and filtering lemmas, induction over the inputs | proved |  |
| C146 | GROUP BY yields one row per key | `Props/QueryRows` | C134 and the meaning of the scan: sorting, eraseDups and filtering lemmas, induction over the inputs | proved | Keys are compared as SQLite compares them; which keys of different values that takes together is C284. |
| C147 | Set operations count rows | `Props/QueryRows` | C134 and the meaning of the scan: sorting, eraseDups and filtering lemmas, induction over the inputs | proved |  |
| C148 | Joins pair matching rows | `Props/QueryRows` | C134 and the meaning of the scan: sorting, eraseDups and filtering lemmas, induction over the inputs | proved |  |
| C149 | Columns keep the values of their type | `Props/Schema` | case analysis over types | proved | FLOAT64, JSON and INTERVAL values are not represented. |
| C150 | Auto index mode only adds indexes | `Props/Schema` | as C143 | partial | The name of the index has no quotes: fails for projects such as a-b and for columns whose names need quotes; right otherwise. |
| C151 | WHERE keeps exactly the matching rows | `Props/QueryRows` | C134 and the meaning of the scan, as C144 | proved |  |
| C152 | UNNEST yields one row per element | `Props/QueryRows` | C134 and the meaning of the scan, as C144 | proved |  |
| C153 | Aggregates without GROUP BY yield one row | `Props/QueryRows` | C134 and the meaning of the scan, as C144 | proved |  |
| C154 | DELETE removes the matching rows | `Props/Dml` | soundness of the translation of expressions and queries with plain names (C134), on the columns that are referred to; witnesses evaluated | partial | Names have no identifiers in DELETE: a subquery that refers to a column of the target with the name of one of its own columns gets its own. Right otherwise. |
| C155 | UPDATE changes the matching rows | `Props/Dml` | soundness of the translation of expressions and queries with plain names (C134), on the columns that are referred to; witnesses evaluated | partial | FROM is dropped: an error or the wrong rows. Right without FROM, under the condition of C154. |
| C156 | INSERT … SELECT appends the rows of the query | `Props/Dml` | soundness of the translation of expressions and queries with plain names (C134), on the columns that are referred to; witnesses evaluated | partial | As far as queries are translated faithfully (C134). |
| C157 | INSERT … VALUES appends the values | `Props/Dml` | soundness of the translation of expressions and queries with plain names (C134), on the columns that are referred to; witnesses evaluated | partial | Right if no subquery has two columns of one name. |
| C158 | CREATE TABLE … AS SELECT | `Props/Dml` | soundness of the translation of expressions and queries with plain names (C134), on the columns that are referred to; witnesses evaluated | partial | OR REPLACE drops a table that the query reads before reading it; IF NOT EXISTS is ignored. Right otherwise. |
| C159 | FLOAT64 arithmetic is correctly rounded and reports overflow | `Props/Float` | `Go/F64`: binary64 as signed multiples of 2^-1074, rounding defined and proved nearest among all numbers of 53 significant bits (`Lemmas/F64`); `Model/Float` follows value.go and function_math.go; statements compare with exact integers of units. | partial | Correct rounding in range and errors for division by zero are proved for all finite values; an overflow is infinite instead of an error. |
| C160 | CAST of FLOAT64 to INT64 rounds | `Props/Float` | `Go/F64`: binary64 as signed multiples of 2^-1074, rounding defined and proved nearest among all numbers of 53 significant bits (`Lemmas/F64`); `Model/Float` follows value.go and function_math.go; statements compare with exact integers of units. | partial | The code truncates. Right exactly when the fraction is below a half and the integer part is an INT64. |
| C161 | FLOOR, CEIL and TRUNC of FLOAT64 | `Props/Float` | `Go/F64`: binary64 as signed multiples of 2^-1074, rounding defined and proved nearest among all numbers of 53 significant bits (`Lemmas/F64`); `Model/Float` follows value.go and function_math.go; statements compare with exact integers of units. | proved |  |
| C162 | TRUNC with a number of decimals | `Props/Float` | `Go/F64`: binary64 as signed multiples of 2^-1074, rounding defined and proved nearest among all numbers of 53 significant bits (`Lemmas/F64`); `Model/Float` follows value.go and function_math.go; statements compare with exact integers of units. | partial | The number of decimals is ignored. Right exactly when the first n decimals are zeros. |
| C163 | IEEE_DIVIDE | `Props/Float` | `Go/F64`: binary64 as signed multiples of 2^-1074, rounding defined and proved nearest among all numbers of 53 significant bits (`Lemmas/F64`); `Model/Float` follows value.go and function_math.go; statements compare with exact integers of units. | partial | Right exactly when the quotient is not NaN (which the client sees as NULL) and the divisor is not a negative zero under a finite non-zero dividend. |
| C164 | FLOAT64 values survive the way through the database | `Props/Float` | `Go/F64`: binary64 as signed multiples of 2^-1074, rounding defined and proved nearest among all numbers of 53 significant bits (`Lemmas/F64`); `Model/Float` follows value.go and function_math.go; statements compare with exact integers of units. | partial | Every value but NaN comes back; NaN becomes NULL, so IS_NAN is never TRUE. |
| C165 | SIGN and ABS of FLOAT64 | `Props/Float` | `Go/F64`: binary64 as signed multiples of 2^-1074, rounding defined and proved nearest among all numbers of 53 significant bits (`Lemmas/F64`); `Model/Float` follows value.go and function_math.go; statements compare with exact integers of units. | partial | SIGN is right exactly when the argument is not a negative zero; ABS is proved. |
| C166 | Order of FLOAT64 | `Props/Float` | `Go/F64`: binary64 as signed multiples of 2^-1074, rounding defined and proved nearest among all numbers of 53 significant bits (`Lemmas/F64`); `Model/Float` follows value.go and function_math.go; statements compare with exact integers of units. | proved |  |
| C167 | LOG with a base | `Props/Float` | `Go/F64`: binary64 as signed multiples of 2^-1074, rounding defined and proved nearest among all numbers of 53 significant bits (`Lemmas/F64`); `Model/Float` follows value.go and function_math.go; statements compare with exact integers of units. | partial | LOG(x, y) computes x * 2^trunc(x): proved wrong for every power of a base y >= 2; no part of the property holds. |
| C168 | CAST of FLOAT64 to NUMERIC | `Props/Float` | `Go/F64`: binary64 as signed multiples of 2^-1074, rounding defined and proved nearest among all numbers of 53 significant bits (`Lemmas/F64`); `Model/Float` follows value.go and function_math.go; statements compare with exact integers of units. | partial | Right exactly when x is finite and has at most nine decimals; infinity becomes 0. |
| C169 | CAST of FLOAT64 to STRING | `Props/Float` | `Go/F64`: binary64 as signed multiples of 2^-1074, rounding defined and proved nearest among all numbers of 53 significant bits (`Lemmas/F64`); `Model/Float` follows value.go and function_math.go; statements compare with exact integers of units. | partial | Right exactly below 10^6 and not for -0.0; from 10^6 on the text has an exponent. |
| C170 | SAFE functions of FLOAT64 | `Props/Float` | `Go/F64`: binary64 as signed multiples of 2^-1074, rounding defined and proved nearest among all numbers of 53 significant bits (`Lemmas/F64`); `Model/Float` follows value.go and function_math.go; statements compare with exact integers of units. | partial | In range the result is nearest, division by zero is NULL; an overflow is infinite instead of NULL. |
| C171 | CUME_DIST | `Props/WindowStat`, `Props/WindowCumeExact` | `Model/WindowStat` follows function_window.go with FLOAT64 results; on integral values all steps are shown exact (`Lemmas/F64Exact`), sorting by the contract of sort.Slice; witnesses evaluated | partial | Peers are counted only if the sort put them earlier; C171_iff: right exactly for the last of the peers. |
| C172 | PERCENT_RANK | `Props/WindowStat`, `Props/WindowStatExact` | `Model/WindowStat` follows function_window.go with FLOAT64 results; on integral values all steps are shown exact (`Lemmas/F64Exact`), sorting by the contract of sort.Slice; witnesses evaluated | partial | Exact for one INT64 key within 2^53: right exactly for a row alone in its partition, in descending order, or with a positive key; the others get a negative result. |
| C173 | AVG over a frame | `Props/WindowStat`, `Props/WindowAvgExact` | `Model/WindowStat` follows function_window.go with FLOAT64 results; on integral values all steps are shown exact (`Lemmas/F64Exact`), sorting by the contract of sort.Slice; witnesses evaluated | partial | The divisor is the length of the frame, NULLs and duplicates included; C173_iff: right exactly without them, or if the values add up to 0. |
| C174 | PERCENTILE_CONT | `Props/Percentile` | `Model/WindowStat` follows function_window.go with FLOAT64 results; on integral values all steps are shown exact (`Lemmas/F64Exact`), sorting by the contract of sort.Slice; witnesses evaluated | partial | Exact for integral values, percentiles c/2^q and a maximum other than 0; values are truncated to integers, a maximum of 0 gives 0, a NULL under RESPECT NULLS panics. |
| C175 | PERCENTILE_DISC | `Props/PercentileDisc` | `Model/WindowStat` follows function_window.go with FLOAT64 results; on integral values all steps are shown exact (`Lemmas/F64Exact`), sorting by the contract of sort.Slice; witnesses evaluated | partial | Right exactly if p * n is 0 or more than 1; otherwise NULL. Without values the code panics. |
| C176 | GROUP BY ROLLUP is translated faithfully | `Props/QueryWindow` | instances of C134 (mutual induction over scans and expressions); sorting and grouping lemmas; witnesses evaluated | partial | Faithful if the grouping columns are selected and, with an empty grouping set, an aggregate is; without a selected aggregate the total is one row per input row. |
| C177 | ROLLUP yields subtotals and totals | `Props/QueryWindow` | instances of C134 (mutual induction over scans and expressions); sorting and grouping lemmas; witnesses evaluated | proved | The rows of every grouping set, for queries that select the grouping columns and the aggregates. |
| C178 | Analytic functions are translated faithfully | `Props/QueryWindow` | instances of C134 (mutual induction over scans and expressions); sorting and grouping lemmas; witnesses evaluated | partial | Faithful without NULLS FIRST/LAST against the default and if each function refers to a column; NULLS FIRST/LAST is dropped from the text of every query; COUNT(*) OVER () is an aggregate of the outer query. |
| C179 | Analytic functions keep the rows | `Props/QueryWindow` | instances of C134 (mutual induction over scans and expressions); sorting and grouping lemmas; witnesses evaluated | proved | For the analytic functions of C178_partial. |
| C180 | Aggregates in subqueries | `Props/QueryWindow` | instances of C134 (mutual induction over scans and expressions); sorting and grouping lemmas; witnesses evaluated | partial | Faithful if the arguments refer to no column or to one of the subquery; an aggregate of outer columns belongs to the outer query in SQLite. |
| C181 | APPROX_COUNT_DISTINCT is exact | `Props/Approx` | induction over the rows with the list of distinct values seen as invariant; injectivity of the texts | proved | INT64, BOOL, STRING and BYTES; C181_text for any type whose texts are injective. |
| C182 | APPROX_QUANTILES spans the data | `Props/Approx`, `Props/Quantiles` | induction over the loop; concrete witnesses evaluated by the kernel | partial | Refuted by unsorted rows. Proved: the elements are input values, the first is the first row and the last the last row. C182_sorted_partial: on INT64 rows that arrive in ascending order without NULLs the result ascends from the least to the greatest value (float64 rounding included). C182_extra: 14 elements for n = 12. |
| C183 | APPROX_TOP_COUNT returns the most frequent values | `Props/ApproxTop` | map invariant (one entry per distinct key with its payload) by induction over the rows, then the contract of sort.Slice | partial | Refuted by fewer distinct values than asked for. Proved for the types Go compares by value: right when there are enough distinct values, an error otherwise. NUMERIC counts every row as distinct, BYTES panic. |
| C184 | APPROX_TOP_SUM returns the heaviest values | `Props/ApproxTop` | map invariant (one entry per distinct key with its payload) by induction over the rows, then the contract of sort.Slice | partial | As C183, for INT64 weights whose sums stay in range. |
| C185 | COVAR_POP is the population covariance | `Props/ApproxStat` | expansion of the sum of deviations by induction, then field arithmetic | partial | Refuted by a single row. C185_value gives the value computed, C185_partial the exact condition under which it is right. Exact arithmetic. |
| C186 | COVAR_SAMP, VAR_SAMP and VAR_POP compute their definitions | `Props/ApproxStat` | expansion of the sum of deviations by induction, then field arithmetic | proved | Exact rational arithmetic stands for float64. |
| C187 | HyperLogLog sketches merge consistently | `Props/ApproxStat` | closed forms of the folds by induction; the estimate is a function of the set of hashes | proved | The sketch library is abstract: the estimate is any function of the set of hashes and the precision. |
| C188 | HLL_COUNT.INIT ignores NULLs | `Props/ApproxStat` | closed forms of the folds by induction; the estimate is a function of the set of hashes | partial | Refuted by a single NULL. C188_partial says what is counted. |
| C189 | TO_JSON_STRING returns JSON | `Props/ToJson` | induction over values with a reader of RFC 8259 written independently; the text of a value is read up to the comma or bracket after it | partial | Exact: the text is the JSON text of the value if the value is clean and no JSON at all otherwise. FLOAT64, JSON and INTERVAL values are not modelled; which characters are printable is open beyond ASCII. In SQL a BOOL arrives as an INT64 (C285). |
| C190 | TO_JSON_STRING of NULL is null | `Props/ToJson` | induction over values with a reader of RFC 8259 written independently; the text of a value is read up to the comma or bracket after it | partial | False for NULL itself, which panics; proved inside arrays and for TO_JSON. |
| C191 | Wide numbers in JSON | `Props/ToJson` | induction over values with a reader of RFC 8259 written independently; the text of a value is read up to the comma or bracket after it | partial | Every INT64 is written as a number, whatever the options. |
| C192 | TO_JSON_STRING tells values apart | `Props/ToJsonInj` | induction over values with a reader of RFC 8259 written independently; the text of a value is read up to the comma or bracket after it | proved | For SQL values in range (Canon) whose NUMERIC parts have at most the digits of their type (Sound). |
| C193 | JSON_VALUE returns the scalar at the path | `Props/JsonFuncs` | the JSON library is a parameter with the laws of one document; case analysis and induction over the elements; the reader of RFC 8259 says what texts denote | partial | Exact. The JSON library is a parameter assumed to select and decode correctly for the document at hand; a JSON number is a rational number, so the text -0 is not represented. |
| C194 | JSON_EXTRACT_SCALAR agrees with JSON_VALUE | `Props/JsonFuncs` | the JSON library is a parameter with the laws of one document; case analysis and induction over the elements; the reader of RFC 8259 says what texts denote | partial | Exact: they agree unless the path selects JSON null. |
| C195 | JSON_VALUE_ARRAY maps JSON_VALUE over an array of scalars | `Props/JsonFuncs` | the JSON library is a parameter with the laws of one document; case analysis and induction over the elements; the reader of RFC 8259 says what texts denote | partial | Exact for both functions. A document the library refuses gives NULL. |
| C196 | JSON_QUERY returns the JSON at the path | `Props/JsonFuncs` | the JSON library is a parameter with the laws of one document; case analysis and induction over the elements; the reader of RFC 8259 says what texts denote | proved | Assumes of the library that it extracts the texts of the selected values and that Compact keeps their meaning. |
| C197 | JSON_QUERY_ARRAY returns the elements | `Props/JsonFuncs` | the JSON library is a parameter with the laws of one document; case analysis and induction over the elements; the reader of RFC 8259 says what texts denote | partial | Exact for both functions. |
| C198 | JSON_TYPE names the kind of JSON | `Props/JsonFuncs` | the JSON library is a parameter with the laws of one document; case analysis and induction over the elements; the reader of RFC 8259 says what texts denote | partial | Exact. |
| C199 | JSON_VALUE undoes TO_JSON | `Props/JsonFuncs` | the JSON library is a parameter with the laws of one document; case analysis and induction over the elements; the reader of RFC 8259 says what texts denote | partial | Exact for INT64 and BOOL; for STRING under the condition that TO_JSON writes JSON at all (C189). |
| C200 | PARSE_JSON refuses numbers it would round | `Props/JsonFuncs` | the JSON library is a parameter with the laws of one document; case analysis and induction over the elements; the reader of RFC 8259 says what texts denote | partial | The mode is never looked at. |
| C201 | STRING of JSON | `Props/JsonFuncs` | the JSON library is a parameter with the laws of one document; case analysis and induction over the elements; the reader of RFC 8259 says what texts denote | partial | Exact. |
| C202 | COUNT and COUNTIF over a frame | `Props/WindowAgg`, `Props/WindowReversed` | induction over the frame of the window order; counterexamples are four-row tables | partial | INT64, BOOL, STRING and BYTES values: right exactly for frames that are not reversed (iff); a reversed frame is a slice panic in every aggregate. |
| C203 | SUM over a frame | `Props/WindowAgg` | induction over the frame of the window order; counterexamples are four-row tables | partial | Every frame that is not reversed (those panic, C202_reversed): the sum modulo 2^64, so right exactly if the sum is an INT64 (iff). Refuted by a slice panic. |
| C204 | STRING_AGG over a frame | `Props/WindowText` | induction over the frame of the window order; counterexamples are four-row tables | partial | Every frame that is not reversed (those panic, C202_reversed): right exactly if the delimiter is not empty or fewer than two texts are joined (iff). |
| C205 | ARRAY_AGG over a frame | `Props/WindowText` | induction over the frame of the window order; counterexamples are four-row tables | partial | Without NULLs in the input, right exactly for frames that are not empty (iff); with a NULL anywhere every row is an error. |
| C206 | ANY_VALUE over a frame | `Props/WindowText` | induction over the frame of the window order; counterexamples are four-row tables | partial | Over a frame with rows: the first value, right exactly if it is not NULL or all are (iff). NULL over a frame outside of the partition; over another empty frame a value from outside. |
| C207 | VAR_POP and VAR_SAMP over a frame | `Props/WindowVar` | induction over the frame of the window order; counterexamples are four-row tables | partial | Right exactly if the frame has no NULL and, for VAR_POP, the partition is not a single row with a value (iff). Floating point rounding is not modelled; STDDEV: C291. |
| C208 | COVAR_SAMP over a frame | `Props/WindowVar` | induction over the frame of the window order; counterexamples are four-row tables | partial | Inputs without NULLs over every frame that is not reversed, and any input over the whole unpartitioned window. COVAR_POP calls the same library function (see C185). CORR: C292. |
| C209 | REGEXP_CONTAINS finds matches | `Props/Regexps` | case analysis over the engine laws and induction over matches; counterexamples with a literal engine | partial | STRING values right; for BYTES it is shown what is compared. Package regexp is a parameter (Go/RegexpEngine.lean) with laws met by a literal engine. |
| C210 | REGEXP_EXTRACT gives the match asked for | `Props/Regexps` | case analysis over the engine laws and induction over matches; counterexamples with a literal engine | partial | STRING with ASCII before the position: right exactly unless the expression has more than one group (iff). Package regexp is a parameter. |
| C211 | REGEXP_EXTRACT_ALL gives all matches | `Props/Regexps` | case analysis over the engine laws and induction over matches; counterexamples with a literal engine | partial | STRING: right exactly if the expression has at most one group (iff). Package regexp is a parameter. |
| C212 | REGEXP_INSTR gives the position of the match | `Props/Regexps` | case analysis over the engine laws and induction over matches; counterexamples with a literal engine | partial | Right exactly if the text up to the position asked for is ASCII (iff); BYTES and refused arguments are characterised. Package regexp is a parameter. |
| C213 | REGEXP_REPLACE replaces the matches | `Props/RegexpReplace` | case analysis over the engine laws and induction over matches; counterexamples with a literal engine | partial | Replacements with references of one digit to groups that exist, followed by something else, and without dollar signs are right; what is done to references at the end, escaped backslashes, trailing backslashes, dollar signs, several digits and missing groups is shown. Package regexp is a parameter. |
| C214 | INITCAP capitalises words | `Props/Words` | induction over the text | partial | Given delimiters: right exactly unless the text starts with a delimiter that upper-casing changes (iff). Default delimiters: right for texts without whitespace other than spaces. |
| C215 | SOUNDEX is American Soundex | `Props/Words` | induction over the text | partial | Right exactly for a capital first letter (iff) if no two letters with one code are separated by vowels only; the result has four characters. |
| C216 | UPPER and LOWER of BYTES change ASCII letters only | `Props/WordBytes` | induction over texts and byte strings with the prefix-freeness of UTF-8 | partial | Right exactly for the UTF-8 bytes of texts whose characters outside ASCII have no other case (iff). |
| C217 | STARTS_WITH and ENDS_WITH undo CONCAT | `Props/WordBytes` | induction over texts and byte strings with the prefix-freeness of UTF-8 | proved |  |
| C218 | ASCII gives the code of the first character | `Props/WordBytes` | induction over texts and byte strings with the prefix-freeness of UTF-8 | partial | STRING right; BYTES right exactly if empty or starting with the byte of V (iff). |
| C219 | Lengths of texts | `Props/WordBytes` | induction over texts and byte strings with the prefix-freeness of UTF-8 | proved |  |
| C220 | SAFE_CONVERT_BYTES_TO_STRING keeps what is text | `Props/WordBytes` | induction over texts and byte strings with the prefix-freeness of UTF-8 | proved |  |
| C221 | Calls on different names do not interfere | `Props/ConcurrentCalls`, `Props/ConcurrentAlone` | simulation: the state restricted to the names of a call, by induction over the schedule | partial | For calls that never register an existing name and schedules without a lookup inside a deletion, any number of connections. alone_exec ties the interleaved programs to Engine.exec. Missing: CREATE OR REPLACE over existing objects, transactions, SQLITE_BUSY. |
| C222 | Temporary objects are private to a call | `Props/ConcurrentCalls` | simulation: the state restricted to the names of a call, by induction over the schedule | partial | After a call of a tame script has returned, exactly its permanent objects exist under its names, if no other call uses these names. |
| C223 | Statements are atomic with respect to crashes | `Props/Crash` | induction over the script and the crash point | partial | At every crash point of a tame script at most one name besides those of temporary objects is broken, and every other name is as after some number of statements. Each SQLite statement is atomic. |
| C224 | NET.IP_FROM_STRING reads the texts of RFC 4291 | `Props/Ipv6` | induction over the loop of the reader in both directions, against the grammar of RFC 4291; the loop invariant of the longest run | partial | Exact (iff) for all texts: zones are accepted and dropped although they should be errors; right for every text without a percent sign. net/netip is part of the trusted model of Go. |
| C225 | NET.IP_TO_STRING writes the recommended IPv6 text | `Props/Ipv6Text` | induction over the loop of the reader in both directions, against the grammar of RFC 4291; the loop invariant of the longest run | proved | All 16-byte addresses. net/netip is part of the trusted model of Go. |
| C226 | PARSE_NUMERIC reads exactly the numeric literals | `Props/ParseNumeric` | a full model of the scanner of math/big; induction over its loop against the grammar of decimal literals, in both directions | partial | Exact (iff) for all texts without the characters / _ b o x p. The other notations of Go (fractions, hexadecimal, underscores, binary exponents) are accepted, range and scale are not checked, NULL panics. math/big Rat.SetString is part of the trusted model of Go. |
| C227 | NET.HOST is the host of the URL without its port | `Props/NetHost` | libraries as parameters with laws; the labels of a host as a list, suffixes as lists of labels | proved | For every parser of URLs whose hosts close their brackets (as net/url guarantees). |
| C228 | NET.REG_DOMAIN is NET.PUBLIC_SUFFIX and one label | `Props/NetHost` | libraries as parameters with laws; the labels of a host as a list, suffixes as lists of labels | partial | Everything but NULL, which panics; for all suffix lists and label-wise conversions. golang.org/x/net/idna and publicsuffix are parameters with two laws. |
| C229 | A JavaScript function that returns its argument changes nothing | `Props/JavaScript` | the conversions of both directions composed; the engine is a parameter | partial | Right for BOOL, STRING, INT64 up to 2^53, DATE, DATETIME, TIME and for arrays; every NUMERIC becomes 0, TIMESTAMP loses fractions of a second, no function of a scalar type ever returns NULL, and a function of an ARRAY type that returns no array panics. FLOAT64, JSON, INTERVAL and STRUCT are not modelled. |
| C230 | A view shows the rows its query has now | `Props/View` | the catalog of SQLite refines one map from names to objects; induction over the nesting of views with query_sound (C134) | partial | Proved for every history and every nesting of views whose queries are translated faithfully (okS, see C134). A view of a query that is translated to no SQLite query cannot be read; CREATE OR REPLACE VIEW v over a query of v is accepted and loses the view. |
| C231 | CREATE … IF NOT EXISTS leaves an existing object alone | `Props/IfNotExists` | one statement on the model of C81 | partial | The statement succeeds and SQLite keeps the object, but its definition is replaced in memory and in the persistent catalog: a database opened again resolves the columns of the table that was never created. TEMP … IF NOT EXISTS removes a permanent object at the end of the call. |
| C232 | The current time in views and functions is that of the statement that uses them | `Props/CurrentStored` | the text written at creation | partial | The time given to WithCurrentTime is written into the stored text: right exactly if both statements have the same time (iff); an object created without WithCurrentTime ignores it. |
| C233 | A function of ANY TYPE can be called with every type its body allows | `Props/Templated` | case analysis over the types tried; induction over the argument list | partial | Exactly which CREATE FUNCTION statements and calls are accepted and with what type (iff): all arguments of ANY TYPE must have one type, and a body that fits none of the thirteen types tried (NUMERIC and BIGNUMERIC are not among them) cannot be created. Right for bodies whose type does not depend on the arguments, is theirs, or an array or element of it. Coercions of arguments are not modelled. |
| C234 | What a function of ANY TYPE computes has the type of the call | `Props/Templated` | case analysis over the types tried; induction over the argument list | partial | Holds for functions without ANY TYPE and for regular bodies. MOD(x, 2) called with NUMERIC is taken for INT64, x - y of two DATEs for a DATE, and RETURNS does not convert the value of a function with arguments of ANY TYPE. |
| C235 | SUM of FLOAT64 | `Props/FloatAgg` | induction over the rows with the relative error of one addition; the loops of GREATEST and LEAST | partial | Every finite result is within the bound; the result is finite if the magnitudes, enlarged by the errors, add up to a FLOAT64. An intermediate overflow gives an infinity though the sum is in range, infinities of both signs give NULL. Integral values up to 2^53 in all are added exactly in every order; otherwise the order matters. |
| C236 | MIN and MAX of FLOAT64 | `Props/FloatAgg` | induction over the rows with the relative error of one addition; the loops of GREATEST and LEAST | proved |  |
| C237 | AVG of FLOAT64 | `Props/FloatAgg` | induction over the rows with the relative error of one addition; the loops of GREATEST and LEAST | partial | It is the nearest FLOAT64 to SUM(x) / COUNT(x), so the nearest to the mean for integral values up to 2^53 in all; otherwise the errors of SUM (C235) are not removed. |
| C238 | ABS, SIGN, FLOOR, CEIL and TRUNC of NUMERIC are exact | `Props/NumericFuncs` | error bound of rounding a fraction to FLOAT64; exactness of the operations on representable values; witnesses | partial | SIGN is right for every NUMERIC. ABS, FLOOR, CEIL and TRUNC are exact up to 2^23 in magnitude and for whole numbers up to 2^53; the first bound is the largest (ABS(8388608.000000001) is 8388608.000000002). ABS is within one part in 2^53 for all. FLOOR(9007199254740991.75) is 9007199254740992. |
| C239 | MOD and DIV of NUMERIC are exact | `Props/NumericFuncs` | error bound of rounding a fraction to FLOAT64; exactness of the operations on representable values; witnesses | partial | MOD is exact for whole numbers up to 2^53, DIV for fractions with one denominator whose numerators are int64. MOD(0.3, 0.1) is 0.1 and DIV(0.5, 0.25) is 1. |
| C240 | DATE, DATETIME and TIME of fields | `Props/Zoned` | time.Date in a zone finds a moment showing the reading (at most one change in the window); equivalences per function; concrete zones as witnesses | partial | Fields of an existing date and time give it; nothing is refused, all other fields are carried over: DATE(2023, 2, 30) is 2023-03-02 and TIME(25, 0, 0) is 01:00:00. |
| C241 | TIMESTAMP and DATETIME in a time zone are inverse | `Props/Zoned`, `Go/Location` | time.Date in a zone finds a moment showing the reading (at most one change in the window); equivalences per function; concrete zones as witnesses | partial | TIMESTAMP finds a moment that shows the reading whenever there is one, for every zone whose offset changes at most once in 32 hours. The round trip holds unless the reading is shown twice, and then fails for one of the two moments. |
| C242 | STRING of a TIMESTAMP denotes it | `Props/Zoned` | time.Date in a zone finds a moment showing the reading (at most one change in the window); equivalences per function; concrete zones as witnesses | partial | The text always ends in +00: it denotes t exactly if the zone is at UTC at that moment, in particular without a zone. |
| C243 | Results do not depend on the time zone of the process | `Props/Zoned` | time.Date in a zone finds a moment showing the reading (at most one change in the window); equivalences per function; concrete zones as witnesses | partial | DATE literals and DATE_FROM_UNIX_DATE give the day before exactly in processes west of UTC; DATETIME, TIME, DATE, CAST and the current date and time agree with UTC exactly under the stated condition on the offset; days of TIMESTAMP_ADD may have 23 or 25 hours. |
| C244 | TIMESTAMP_TRUNC in zones with changing offsets | `Props/Zoned` | time.Date in a zone finds a moment showing the reading (at most one change in the window); equivalences per function; concrete zones as witnesses | partial | Right when the offset has not changed since the start of the unit and this start is shown once; the clock shows the start at the result whenever it ever does. In the hour shown twice the result may be an hour early or later than t; a day without midnight becomes the day before. |
| C245 | A field of a struct is the value it was made of | `Props/Structs` | induction on the fields; structs as maps from names | partial | Proved of the functions for every struct they are given. On the way to them through SQLite INT64 fields beyond 2^53 may change; C286 says which. |
| C246 | Structs are equal if all their fields are | `Props/Structs` | induction on the fields; structs as maps from names | partial | Only the last field of each name is compared: with distinct names this is equality, of tuples without names only the last field counts, so (1, 2) = (3, 2) is TRUE. |
| C247 | HAVING MAX and HAVING MIN of an aggregate | `Props/AggCall` | the options a call makes of its modifiers; induction over the rows of the group; reduction to ARRAY_AGG | partial | The modifier is ignored: the result is right if the rows it would leave out have NULL arguments, for COUNT exactly then. |
| C248 | NULLS FIRST and NULLS LAST of an aggregate | `Props/AggCall` | the options a call makes of its modifiers; induction over the rows of the group; reduction to ARRAY_AGG | partial | The order of NULLs is not looked at: right without NULL keys and in descending order unless NULLS FIRST is asked for, which puts NULLs last. In ascending order with NULL keys see C37. |
| C249 | ARRAY_CONCAT_AGG concatenates the arrays | `Props/AggCall` | the options a call makes of its modifiers; induction over the rows of the group; reduction to ARRAY_AGG | partial | The concatenation of what ARRAY_AGG collects of the arrays; without any array the empty array instead of NULL. |
| C250 | Queries on TABLESAMPLE, PIVOT and UNPIVOT | `Props/Blank` | evaluation of the text, in which nothing stands for the scan | partial | The scan is written as nothing. Queries that select a column of it, have WHERE or aggregate an expression with a column fail; an aggregate without columns such as COUNT(*) is computed as if the scan had one row, without an error. |
| C251 | Functions of NULL are NULL | `Props/Nulls` | the checks of all bind functions as a table generated from the source; case distinction on the checks, with arbitrary functions behind them | partial | Exact: a function is NULL for NULL if and only if it is not in a list of 24. LIKE is FALSE; SPLIT and TO_CODE_POINTS are empty arrays; JUSTIFY_* and JSON_TYPE are errors; ROUND with NULL decimals, INTERVAL, MAKE_INTERVAL, PARSE_NUMERIC, ARRAY_*, GENERATE_*_ARRAY with a NULL step and six functions of NET panic. |
| C252 | TRUNCATE and MERGE change the table that they name | `Props/Truncate` | invariant of the tree of table objects over all histories; the name of the stored table against the last component by length and by the absence of dots | partial | Exact: right if and only if the path, completed by the name path, has one component. Otherwise the last component alone is taken for the name: TRUNCATE TABLE d.t empties the table t, or fails if there is none; the same for the statements of MERGE. |
| C253 | RowsAffected counts the rows that were changed | `Props/Result` | reuses the translation theorems of INSERT, UPDATE and DELETE; the number SQLite reports is the number of rows the condition selects | partial | Proved for INSERT, UPDATE and DELETE in the cases in which they are executed as they should (C154 to C157). TRUNCATE and MERGE report 0; of several statements only the last counts; on the result of a prepared CREATE statement the method panics. |
| C254 | A client that closes its rows can close its connection | `Props/Cursors` | induction over the script: the cursors opened are numbered by the queries started; the rows returned are those of the last statement | partial | Exact: closing the connection returns if and only if no query was run but as the last statement of a script that succeeded; otherwise it waits forever for the cursors of the others. Outside of transactions; that sql.Conn.Close waits for open cursors is trusted. |
| C255 | The rows of every query can be closed and asked for changes | `Props/Cursors` | induction over the script: the cursors opened are numbered by the queries started; the rows returned are those of the last statement | partial | Exact: the changes of the catalog can be had unless the last statement is explained or prepared; closing panics exactly if the last statement is explained and a statement of the script has made a temporary object or a view. |
| C256 | INSERT into a table with a primary key | `Props/Keys` | induction over the rows in the order SQLite visits them, against pairwise distinctness of the keys | partial | Exact: plain INSERT is right; the other modes are right if and only if there is nothing to ignore, replace or update, and fail otherwise. Keys with NULL are never refused. That SQLite checks one row after the other is trusted. |
| C257 | UPDATE of a primary key | `Props/Keys` | induction over the rows in the order SQLite visits them, against pairwise distinctness of the keys | partial | Exact: it also fails if a row gets the key that a row visited later still has, such as in SET id = id + 1. |
| C258 | ASSERT_ROWS_MODIFIED is checked | `Props/Keys` | reuses C253 | partial | Exact, for the statements of C253: the assertion is never looked at, so it is right if and only if the number of rows is the one asserted. |
| C259 | LIKE on BYTES matches SQL patterns | `Props/LikeBytes` | the base64 text has no wildcard and is injective; a shortest text is computed for every pattern, by induction over the pattern | partial | Exact: the code matches base64 texts, so LIKE on BYTES is equality; a pattern is right for all texts if and only if it has no special byte. |
| C260 | A map given for a STRUCT parameter is that struct | `Props/MapParams` | induction over the two iterations of an argument; the fields are looked up by name, which is invariant under permutation | partial | The order never matters. The value is right for every map with a key that is not empty; the empty map is a struct without fields, and a map whose only key is empty is not cast. Keys are strings. |
| C261 | A field of a JSON value is what its path selects | `Props/JsonField` | case analysis; the path text of plain names by induction over the name | proved | What a path selects is the JSON library (Works, as in C196). Names with quotes, backslashes or unprintable characters are written as %q does; whether the library reads such paths is not settled. |
| C262 | Hash functions hash the bytes | `Props/Hash` | case analysis over the functions; arithmetic modulo 2^64 | proved | The hash functions themselves are parameters. |
| C263 | BYTES literals denote their bytes | `Props/BytesLit` | induction over the bytes; every byte is written so that strconv.Unquote reads it back | partial | Right for all bytes between double quotation marks; between single ones exactly for one byte at most (iff): the value of every longer literal is its own text. Which marks the analyzer chooses is a matter of ZetaSQL; how it escapes bytes is assumed. |
| C264 | Mathematical functions refuse arguments outside their domain | `Props/MathFuncs` | case analysis over the functions and the binary64 argument, from the documented special cases of package math | partial | False for every function and every argument outside its domain: no error is ever reported. What the client gets is stated exactly: an infinity for LN and LOG10 of zero, ATANH of -1 and 1, EXP and POW of a zero, NULL in all other cases. Package math is a parameter, assumed to have its documented special cases. |
| C265 | NORMALIZE gives a normal form | `Props/Normalize` | case analysis over the forms and the arguments, laws of Unicode normalization as parameters; strings.Split through its pieces | proved | golang.org/x/text/unicode/norm is a parameter; assumed are the laws of the four forms. |
| C266 | NORMALIZE_AND_CASEFOLD ignores case | `Props/Normalize` | case analysis over the forms and the arguments, laws of Unicode normalization as parameters; strings.Split through its pieces | partial | The results agree exactly for texts whose lower-case texts are equivalent (iff); for ASCII the result is the lower-case text. False in general: the code takes lower case for case folding (ß and ss, Σ and ς differ) and does so before normalizing (U+1D400 gives A with NFKC). |
| C267 | COLLATE makes comparisons ignore case | `Props/Normalize` | case analysis over the forms and the arguments, laws of Unicode normalization as parameters; strings.Split through its pieces | partial | False: under tag:ci two texts are equal exactly when they are the same (iff), every other specification is an error. |
| C268 | CONTAINS_SUBSTR finds texts | `Props/Normalize` | case analysis over the forms and the arguments, laws of Unicode normalization as parameters; strings.Split through its pieces | partial | False for all texts: the result is always NULL; a search text that is NULL is an error. |
| C269 | Arrays and structs keep their FLOAT64 and JSON values | `Props/FloatCodec` | mutual induction over nested values, with the JSON package as a parameter | partial | Read back exactly if the value is not NaN and all FLOAT64 inside its arrays and structs are finite (iff); NaN becomes NULL, an array or struct with a NaN or an infinity anywhere in it is an error. The JSON package and base64 are parameters: what they write they read back, and they refuse NaN and infinities. |
| C270 | DEFAULT in INSERT | `Props/Assign` | induction over rows and items, with the tokens of the text and the grammar of SQLite | partial | Exact: DEFAULT is written as the empty text, which SQLite refuses, so a statement with DEFAULT anywhere is an error; the others insert their values. |
| C271 | SET assigns what it says | `Props/Assign` | induction over rows and items, with the tokens of the text and the grammar of SQLite | partial | Exact: columns set to values are right; with a field of a struct or DEFAULT anywhere the statement is an error. |
| C272 | CAST of INT64 to NUMERIC loses nothing | `Props/CastNumeric` | computation of CastValue on all numbers | proved | CAST and SAFE_CAST. |
| C273 | CAST between NUMERIC and BIGNUMERIC | `Props/CastNumeric` | computation of CastValue on all numbers | partial | NUMERIC to BIGNUMERIC is right. BIGNUMERIC to NUMERIC keeps the number: right exactly if it is in range and has at most nine decimals (iff). |
| C274 | Calls made once per statement are not noticed | `Props/Once` | simulation of the code with registers by the code without: invariant on the registers, mutual induction on expressions, induction on the rows | proved | When SQLite calls a function once is trusted (sqlite3ExprCodeRunJustOnce). |
| C275 | RAND and GENERATE_UUID give every row its own value | `Props/Once` | simulation of the code with registers by the code without: invariant on the registers, mutual induction on expressions, induction on the rows | partial | The function is called once per place in the text: all rows have one value, so right exactly if the calls would all have given the same (iff); wrong for identifiers as soon as there are two rows. |
| C276 | NOT NULL and PRIMARY KEY hold after every history | `Props/Constraints` | invariant over the history of statements | partial | Proved for tables created with a list of columns whose key columns are NOT NULL. A key with a NULL may be stored any number of times, and of CREATE TABLE … AS no constraint is ever looked at. That SQLite refuses statements against constraints is trusted. |
| C277 | FORMAT('%T', v) is a literal of v | `Props/Printable` | inductive relation of literals to values; induction on values, characters and bytes; the relation is shown to be a function of the text | partial | Right for INT64, BOOL (in SQL a BOOL arrives as an INT64, C285), STRING, DATE, DATETIME, TIME, BYTES without quotation marks and backslashes, and arrays and tuples of such values; BYTES exactly for those (iff) and TIMESTAMPs exactly for whole seconds (iff). NUMERIC is never right, nor are structs with names; the result for NULL is NULL. FLOAT64, JSON and INTERVAL are not covered. |
| C278 | FORMAT('%t', v) can be cast back | `Props/PrintableText` | the text is the one of CAST to STRING (C94); for BYTES by comparison of lengths | partial | Right for all types but two: TIMESTAMPs exactly for whole seconds (iff), BYTES exactly if they are printable ASCII (iff). In SQL a BOOL arrives as an INT64 (C285). |
| C279 | Wildcard tables may have columns of any name | `Props/WildcardText` | the text is read back with the tokens of C143; induction on the list of columns | partial | Exact, for names without special characters: right unless a table lacks a column that is called by a word SQLite reserves (order, index, to, …); then the query is an error. How SQLite reads names is trusted. |
| C280 | Entries of WITH may have any name | `Props/WithText` | the text is read back with the tokens of C143; a count of characters excludes quoted names | partial | Exact: an entry keeps its name if and only if that is a word (letters, digits, _ and $) that SQLite does not reserve, and not RECURSIVE in the first entry; reserved words are errors. How SQLite reads names is trusted. |
| C281 | CAST with FORMAT uses the format | `Props/CastFormat` | comparison of the text of C94 with the one the format describes; lengths and padding for the encodings | partial | The clause is ignored. Exact for formats of YYYY, MM, DD and separators (right for all dates only for YYYY-MM-DD) and for BYTES (HEX only for empty values; BASE64 is right, since CAST gives base64 without a clause). Missing: the other elements of formats. |
| C282 | ORDER BY with COLLATE uses the collation | `Props/OrderCollate` | C32 for texts; induction on the result | partial | The clause is ignored. Exact: two texts are compared rightly, and a result is in the right order, if and only if the collation (any function to sort keys) orders these texts as their characters do. |
| C283 | Types with parameters limit their values | `Props/TypeParams` | INSERT under the constraints of C276; induction on the columns | partial | The parameters are dropped. Exact: a row that breaks no NOT NULL is stored, so a table keeps to its types if and only if the rows inserted do; CAST gives a value of the type if and only if its argument is one. |
| C284 | GROUP BY tells different keys apart | `Props/GroupKey` | injectivity of the texts of numbers, dates and times, type by type | partial | Exact: timestamps of one second, strings equal up to their first NUL, NULL with empty BYTES and NULL with NaN are taken together; all other keys are told apart if and only if they differ. |
| C285 | Functions get the values they are called with | `Props/Args` | the round trip of C19 for scalars; induction on the fields of a struct | partial | Exact for every function of one argument of a scalar type: a BOOL arrives as the INT64 0 or 1, every other value as it is. TO_JSON_STRING of a struct made of scalars writes a field as it should if and only if it is no BOOL and no INT64 of seven digits or more (INT64 up to 2^53). FLOAT64 arguments are not modelled. |
| C286 | Elements and fields keep their values | `Props/Args` | the round trip of C19 and a walk along the elements | partial | Exact for arrays and structs of values of any depth: an element or field is the value put in if and only if FLOAT64 has every INT64 in it, so all up to 2^53. |
| C287 | %c writes and reads moments as C does | `Props/Ansic` | the text read by the layout of time.Parse, element by element | partial | Exact: right if and only if the day of the month has two digits. On the first nine days a zero is written instead of the space, and the text of C is an error. What %c writes is always read back. If anything stands after it the text is an error, whatever the format. |
| C288 | SPLIT with an empty delimiter gives characters or bytes | `Props/SplitEmpty` | induction over the bytes with the decoding of UTF-8 | partial | Exact: right for a STRING that is not empty, and for BYTES that are not empty and in which no character beyond ASCII is encoded; the bytes of such a character stay together. An empty value has no piece at all. |
| C289 | CORR is Pearson's coefficient | `Props/Corr` | Cauchy and Schwarz by a sum of squares; induction over the rows | proved | In exact arithmetic, the result a signed root of a rational number; floating point rounding is not modelled. If a column does not vary the result is NULL (NaN becomes NULL, see C164). |
| C290 | Standard deviations are roots of variances | `Props/Corr` | from C186; a sum of squares is 0 only if every one is | proved | In exact arithmetic; floating point rounding is not modelled. |
| C291 | Standard deviations over frames | `Props/WindowStddev` | from C207 | partial | Right exactly if the frame has no NULL and, for STDDEV_POP, the partition is not a single row with a value (iff), as C207. |
| C292 | CORR over frames | `Props/WindowStddev` | from C289 and the frames of C208 | partial | Inputs without NULLs over every frame that is not reversed, and any input over the whole unpartitioned window. A row with a NULL never reaches the aggregator, so the rows after it are taken for others: the last one panics. |
| C293 | The difference of two times | `Props/Interval` | cases on the saturation of time.Sub, and C85 | partial | Right exactly if the times are less than 2^63 nanoseconds apart, for every way of splitting a duration. How an interval is passed between functions as text is not modelled. |
| C294 | Intervals can be compared | `Props/Interval` | cases on the operator | partial | No comparison works: every operator with an INTERVAL on the left is an error, so that there is no wrong answer either. |
| C295 | Connections opened with one name work on one database | `Props/Memory` | simulation: the catalog and the databases against one database, with the owner of each table | partial | Files: right for every history. For :memory: every connection has a SQLite database of its own although all share the catalog: right exactly if, while a table exists, only the connection that made it uses its name; so always with one connection. |
| C296 | A database in memory begins empty and belongs to its connection | `Props/Pool` | simulation with an invariant of the pool, the databases and the catalog; induction over the sessions | partial | Right if no connection is closed that has tables and none makes a table of a name that another open connection has. Otherwise: with one connection open at a time, closing has no effect at all (the next connection finds every table), and dropping a table hides the tables of that name of other connections. The condition is sufficient, not necessary. |

## Axioms of the claimed theorems

Obtained with `#print axioms` for every theorem of `MANIFEST.json`; nothing but the three axioms of Lean occurs.

* no axioms — 19 theorems: `Arith.C30_counterexamples`, `Arith.C30_full_false`, `Cursors.C254_exec`, `Cursors.C255_full_false`, `Date.C53_full_false`, `Driver.C13_close_errors`, `Driver.C13_query_full_false`, `Float.C165_inf`, `Interval.C294_full_false`, `Interval.C294_partial`, `Interval.C56_full_false`, `Interval.C56_months_false`, `Interval.C85_full_false`, `Keys.C256_full_false`, `Keys.C257_full_false`, `Spec.civil_zero`, `Templated.C233_not_created`, `Window.C40_string`, `Zoned.C243_add_wrong`
* `propext` — 174 theorems: `AggCall.C249_full_false`, `Aggregate.C36_ignore_nulls`, `Aggregate.C36_two_args_false`, `Aggregate.C37_null_asc_counterexample`, `Aggregate.C37_string_full_false`, `Approx.C182_extra`, `Approx.C183_bytes`, `Approx.C188_full_false`, `Arrays.C64_null`, `Arrays.C65_default`, `Arrays.C65_null`, `Arrays.C66_null`, `Arrays.C67_null`, `Arrays.C88_null`, `Arrays.C88_quarter_is_day`, `Arrays.C88_timestamp_part`, `Assign.C270_full_false`, `Bits.C69_negative_partial`, `Bits.C69_right_shift_counterexample`, `Catalog.C07_full_false`, `Catalog.C07_shadowed_by_longer_path`, `Catalog.C08_full_false`, `Catalog.C08_shared_name_loses_functions`, `Catalog.C09_reopen_fails`, `Catalog.C09_replaced_function_differs`, `Catalog.C11_replaced_function_stays`, `Catalog.C252_unknown`, `Codec.C20_null`, `Concurrent.C221_lookup_inside_drop`, `Concurrent.C221_replace_reverted`, `Concurrent.C222_temp_visible`, `Concurrent.C222_temps_collide`, `Concurrent.C223_half_create`, `Concurrent.C223_half_drop`, `Concurrent.C223_temp_survives`, `Constraints.C276_full_false`, `Current.C112_full_false`, `Current.C112_partial`, `Current.C232_partial`, `Current.C76_now`, `Cursors.C254_failed`, `Cursors.C254_full_false`, `Cursors.C255_panics`, `Cursors.C255_prepared`, `Driver.C12_exec_stops_at_first_failure`, `Driver.C12_outcome_unique`, `Driver.C13_errors_reported`, `Driver.C13_exec_cleans_up`, `Driver.C13_query_close_partial`, `Engine.C231_full_false`, `Engine.C231_reopened`, `Engine.C78_failed_create_partial`, `Engine.C78_full_false`, `Engine.C78_temp_function_destroys_permanent`, `Engine.C78_temp_table_destroys_permanent`, `Engine.C79_full_false`, `Engine.C79_missing`, `Engine.C79_wrong_kind`, `Engine.C80_full_false`, `Engine.C80_prepare_partial`, `Engine.C81_temp_destroys_permanent`, `Float.C159_full_false`, `Float.C160_full_false`, `Float.C161_inf`, `Float.C163_full_false`, `Float.C164_full_false`, `Float.C164_isNaN`, `Float.C164_never`, `Float.C164_partial`, `Float.C165_abs`, `Float.C165_full_false`, `Float.C168_full_false`, `Float.C170_full_false`, `Float.C235_full_false`, `Float.C235_order`, `Float.C235_overflow`, `Float.C237_full_false`, `FloatCodec.C269_nan`, `Format.C113_star_false`, `GroupKey.C284_nested`, `Interval.C84_full_false`, `JsonFuncs.C195_refused`, `JsonFuncs.C200_refused`, `JsonFuncs.C261_other`, `Like.C29_exact`, `Like.C29_full_false`, `Like.C29_like_partial`, `Like.C29_newline`, `Like.C29_null`, `Like.C29_sound`, `Like.C29_total`, `Logic.C23_and`, `Logic.C23_and_order`, `Logic.C23_not`, `Logic.C23_or`, `Logic.C23_or_order`, `Logic.C24_bool`, `Logic.C24_struct_names_panic`, `Logic.C27_if`, `Logic.C27_ifnull`, `Logic.C27_nullif_full_false`, `Logic.C27_sql_if`, `Logic.C28_full_false`, `MathFuncs.C264_value`, `Merge.C120_by_source`, `Merge.C120_condition_ignored`, `Merge.C120_conditions`, `Merge.C120_crossed`, `Merge.C120_null_key`, `Merge.C120_update_open`, `Merge.C121_effects`, `Merge.C121_full_false`, `Merge.C121_stuck`, `NamePath.C05_collision_needs_underscore`, `NamePath.C05_distinct_partial`, `NetHost.C228_null_panics`, `Normalize.C265`, `Normalize.C266_partial`, `Normalize.C268_exact`, `Normalize.C268_full_false`, `Nulls.C251_tables`, `Once.C275_once_partial`, `Params.C18_both_get_first`, `Params.C18_ifnull`, `Prepared.C122_full_false`, `Prepared.C122_ignored`, `Prepared.C122_partial`, `Prepared.C123_create`, `Prepared.C123_full_false`, `Prepared.C123_function`, `Prepared.C123_last`, `Prepared.C123_nil`, `Prepared.C124_full_false`, `Prepared.C124_lost`, `Prepared.C124_partial`, `Printable.C277_null`, `Query.C144_nulls`, `Query.C253_prepared`, `Regexps.C210_bytes_false`, `Regexps.C210_position_false`, `Registry.C31_null_on_error`, `Registry.C31_same_on_success`, `Schema.C143_backquote`, `Schema.C143_key`, `Schema.C143_other`, `Schema.C149`, `Schema.C150_project`, `Strings.C60_comma`, `Strings.C62_not_ascii`, `Strings.C63_full_false`, `Strings.C63_instr_negative`, `Strings.C63_instr_two`, `Strings.C87_inserted`, `Strings.C93`, `Strings.C93_join`, `Templated.C233_full_false`, `Templated.C233_two_types`, `Templated.C234_difference`, `Templated.C234_full_false`, `Templated.C234_numeric`, `Templated.C234_returns`, `TimeFormat.C117_quarter_false`, `TimestampText.C22_full_false`, `Udf.C74_full_false`, `Window.C38_window_recorded`, `Window.C39_null_key_counterexample`, `Window.C44_first`, `Window.C44_nth`, `Window.C45_null`, `Window.C45_wide`, `Window.goodParts_string`, `Words.C216_full_false`, `Zoned.C241_twice`, `Zoned.C244_wrong`
* `Quot.sound`, `propext` — 219 theorems: `AggCall.C249_order`, `AggCall.C249_partial`, `Aggregate.C34_count_star`, `Aggregate.C36_distinct`, `Aggregate.C37_array_agg`, `Aggregate.C37_array_agg_limit`, `Aggregate.C37_order_full_false`, `Aggregate.C37_string_agg_partial`, `Aggregate.C38_recorded`, `Approx.C182_full_false`, `Approx.C183_numeric`, `Approx.C187`, `Approx.C188_partial`, `Arith.C30_float_range_partial`, `Arrays.C64_subscript`, `Arrays.C66_arrays`, `Arrays.C66_length`, `Arrays.C89_null`, `Assign.C270_exact`, `Assign.C271_exact`, `Assign.C271_full_false`, `Bits.C69_bit_count`, `Bits.C69_bit_count_bytes`, `Bits.C69_full_false`, `Bits.C90_bits_determine`, `Bits.C90_null`, `BytesLit.C263_partial`, `BytesLit.C263_single`, `Catalog.C06_changed_is_net_effect_partial`, `Catalog.C06_never_both_partial`, `Catalog.C07_exact_partial`, `Catalog.C07_function_iff_partial`, `Catalog.C07_latest_definition_partial`, `Catalog.C07_table_partial`, `Catalog.C08_drop_frame_partial`, `Catalog.C08_exact_partial`, `Catalog.C09_exact_partial`, `Catalog.C09_function_iff_partial`, `Catalog.C09_reopen_partial`, `Catalog.C10_temp_not_persisted`, `Catalog.C11_exact_partial`, `Catalog.C11_full_false`, `Catalog.C11_replaced_is_read`, `Catalog.C11_sync_sees_creates_partial`, `Catalog.C15_exact_partial`, `Catalog.C15_full_false`, `Catalog.C15_reopen_after_rollback_partial`, `Concurrent.C221_full_false`, `Concurrent.C222_full_false`, `Concurrent.C223_full_false`, `Constraints.C276_as`, `Constraints.C276_null`, `Current.C232_frozen`, `Current.C232_full_false`, `Current.C232_ignored`, `Cursors.C254_prepared`, `Date.C51_clock_partial`, `Date.C83_diff_partial`, `Date.C83_time_partial`, `Driver.C14_ends_even_on_error`, `Driver.C14_statement_runs_in_open_tx`, `Driver.C16_every_open_can_finish`, `Driver.C16_one_database_per_dsn`, `Engine.C231_partial`, `Engine.C231_temp_destroys`, `Engine.C79_drop_if_exists_partial`, `Engine.C81_exact_partial`, `Engine.C81_frame_partial`, `Engine.C81_full_false`, `Engine.C81_kept_partial`, `Engine.C81_net_effect_partial`, `Engine.C81_temporary_gone_partial`, `Engine.C82_changed_record_partial`, `Engine.C82_full_false`, `Float.C164_isInf`, `Float.C168_partial`, `Float.C235_bound`, `Format.C113_zero`, `Format.C71_many_false`, `Format.C72_full_false`, `Format.C72_partial`, `Go.Location.wall_date`, `Interval.C84_fraction`, `Interval.C84_make`, `Keys.C256_iff`, `Keys.C256_insert`, `Keys.C256_null`, `Keys.C256_plain`, `Keys.C257_exact`, `Keys.C257_partial`, `Like.C259_exact`, `Like.C259_full_false`, `Like.C259_iff`, `Logic.C24_full_false`, `Logic.C26_full_false`, `Logic.C26_unnest_full_false`, `Logic.C27_case`, `Logic.C27_case_value`, `Logic.C27_coalesce`, `MathFuncs.C264_pow_neg`, `Memory.C295_file_partial`, `Memory.C295_full_false`, `Memory.C295_memory_partial`, `Memory.C295_single`, `Memory.C296_drop`, `Memory.C296_full_false`, `Memory.C296_sessions`, `Merge.C120_full_false`, `Merge.C120_names`, `Merge.C120_swapped`, `Net.C68_ipv4_roundtrip`, `Net.C68_safe_from_string`, `NetHost.C228_partial`, `Normalize.C266_ascii`, `Normalize.C266_full_false`, `Nulls.C251_else`, `Nulls.C251_full_false`, `Nulls.C251_iff`, `Nulls.C251_partial`, `Nulls.C251_wrong`, `Once.C274`, `Once.C275_column`, `Once.C275_full_false`, `Once.C275_iff`, `Once.C275_two`, `Once.C275_wrong`, `Params.C17_full_false`, `Params.C18_full_false`, `Params.C18_mixed_rejected`, `Params.C18_source`, `Prepared.C123_named`, `Query.C154_rows`, `Regexps.C209_partial`, `Regexps.C210_bytes`, `Regexps.C210_partial`, `Regexps.C211_partial`, `Regexps.C212_behind`, `Regexps.C212_bytes_partial`, `Regexps.C212_output_false`, `Regexps.C212_partial`, `Regexps.C212_refused`, `Regexps.C212_which_false`, `Regexps.C213_backslash`, `Regexps.C213_digits`, `Regexps.C213_end`, `Regexps.C213_null`, `Regexps.C213_panic`, `Regexps.C213_partial`, `Registry.C31_nothing_else`, `Registry.C31_registry_partial`, `Schema.C143_full_false`, `Schema.C143_partial`, `Schema.C143_quote`, `Schema.C150_full_false`, `Schema.C150_partial`, `Strings.C58_left_right`, `Strings.C58_pad_negative`, `Strings.C58_repeat_partial`, `Strings.C58_reverse`, `Strings.C59_bytes_base64_partial`, `Strings.C59_bytes_partial`, `Strings.C59_full_false`, `Strings.C59_string`, `Strings.C59_trim_bytes_false`, `Strings.C60_empty`, `Strings.C60_join_split`, `Strings.C61_base32`, `Strings.C61_base64`, `Strings.C61_chr_unicode`, `Strings.C61_code_points_bytes`, `Strings.C61_code_points_null`, `Strings.C61_hex`, `Strings.C62_not_ascii_dup`, `Strings.C63_instr_last`, `Strings.C63_instr_not_ascii`, `Strings.C63_strpos_bytes`, `Strings.C63_strpos_false`, `Strings.C87_empty_bytes_partial`, `Strings.C87_empty_partial`, `Strings.C87_full_false`, `Strings.C87_partial`, `Templated.C233_fixed`, `TimeFormat.C115_full_false`, `TimeFormat.C115_partial`, `TimeFormat.C128_text`, `TimeFormat.C133`, `TimeFormat.C54_other_text`, `TimeFormat.C54_reject_false`, `TypeParams.C283_null`, `Udf.C74_partial`, `Udf.C74_prefix_breaks`, `Wildcard.C73_columns_partial`, `Wildcard.C73_complete_partial`, `Wildcard.C73_full_false`, `Wildcard.C73_partial`, `Wildcard.C73_parts_counterexample`, `WildcardText.C279_exact`, `WildcardText.C279_full_false`, `Window.C38_window_panics`, `Window.C39_full_false`, `Window.C45_full_false`, `Window.C45_partial`, `WindowAgg.C205_full_false`, `WindowAgg.C205_null`, `WindowStat.C173_null`, `WindowStat.C174_full_false`, `WindowStat.C174_respect_nulls`, `WindowStat.C174_truncates`, `WithText.C280_full_false`, `WithText.C280_iff`, `WithText.C280_reserved`, `Words.C214_partial`, `Words.C215_shape`, `Zone.C55_history`, `Zone.C55_named_false`, `Zone.C55_named_partial`, `Zoned.C240_full_false`, `Zoned.C243_full_false`, `Zoned.C244_full_false`
* `Classical.choice`, `Quot.sound`, `propext` — 688 theorems: `AggCall.C247_count`, `AggCall.C247_full_false`, `AggCall.C247_partial`, `AggCall.C247_wrong`, `AggCall.C248_first`, `AggCall.C248_full_false`, `AggCall.C248_keys`, `AggCall.C248_partial`, `AggCall.C248_wrong`, `Aggregate.C33_countif`, `Aggregate.C33_full_false`, `Aggregate.C33_min_max`, `Aggregate.C33_partial`, `Aggregate.C34_any_value`, `Aggregate.C34_avg_overflow`, `Aggregate.C34_avg_partial`, `Aggregate.C34_count`, `Aggregate.C34_countif`, `Aggregate.C34_min_max`, `Aggregate.C34_sum_full_false`, `Aggregate.C34_sum_iff`, `Aggregate.C34_sum_int_partial`, `Aggregate.C34_sum_numeric`, `Aggregate.C35_bit_and_partial`, `Aggregate.C35_bit_or_partial`, `Aggregate.C35_bit_xor_partial`, `Aggregate.C35_counterexamples`, `Aggregate.C35_full_false`, `Aggregate.C35_logical_partial`, `Aggregate.C37_null_desc`, `Aggregate.C37_order_partial`, `Aggregate.C38_full_false`, `Aggregate.C38_partial`, `Approx.C181`, `Approx.C181_text`, `Approx.C182_partial`, `Approx.C182_sorted_partial`, `Approx.C183_full_false`, `Approx.C183_partial`, `Approx.C184_full_false`, `Approx.C184_partial`, `Approx.C185_full_false`, `Approx.C185_partial`, `Approx.C185_value`, `Approx.C186`, `Approx.C289`, `Approx.C289_line`, `Approx.C289_null`, `Approx.C289_range`, `Approx.C290`, `Approx.C290_zero`, `Args.C285_bool`, `Args.C285_call_iff`, `Args.C285_deep`, `Args.C285_field_iff`, `Args.C285_full_false`, `Args.C285_partial`, `Args.C285_struct`, `Args.C286_full_false`, `Args.C286_iff`, `Args.C286_outside`, `Args.C286_partial`, `Arith.C30_add_sub_mul_partial`, `Arith.C30_div_partial`, `Arrays.C65_full_false`, `Arrays.C65_never_ends`, `Arrays.C65_partial`, `Arrays.C67_bucket`, `Arrays.C88_day_week_partial`, `Arrays.C88_full_false`, `Arrays.C88_month_end`, `Arrays.C88_month_year_partial`, `Arrays.C88_timestamp_partial`, `Arrays.C89_extremes`, `Arrays.C89_order`, `Bits.C69_left_large`, `Bits.C69_left_partial`, `Bits.C69_right_partial`, `Bits.C90_bitwise`, `Blank.C250_agg`, `Blank.C250_full_false`, `Blank.C250_partial`, `Blank.C250_select`, `Blank.C250_where`, `Blank.C250_wrong`, `BytesLit.C263_full_false`, `BytesLit.C263_iff`, `Cast.C100_full_false`, `Cast.C100_partial`, `Cast.C101`, `Cast.C102_anonymous_false`, `Cast.C102_full_false`, `Cast.C102_partial`, `Cast.C102_renamed`, `Cast.C103`, `Cast.C104_full_false`, `Cast.C104_partial`, `Cast.C105_full_false`, `Cast.C105_partial`, `Cast.C106_full_false`, `Cast.C106_iff`, `Cast.C106_partial`, `Cast.C126`, `Cast.C272`, `Cast.C273_full_false`, `Cast.C273_iff`, `Cast.C94`, `Cast.C95_full_false`, `Cast.C95_partial`, `Cast.C96_full_false`, `Cast.C96_iff`, `Cast.C96_partial`, `Cast.C96_underscore`, `Cast.C97_full_false`, `Cast.C97_partial`, `Cast.C98`, `Cast.C99`, `CastFormat.C281_base64`, `CastFormat.C281_date_iff`, `CastFormat.C281_from_hex_iff`, `CastFormat.C281_full_false`, `CastFormat.C281_hex_iff`, `CastFormat.C281_iso_iff`, `CastFormat.C281_parse`, `Catalog.C06_full_false`, `Catalog.C252_full_false`, `Catalog.C252_iff`, `Catalog.C252_merge`, `Catalog.C252_other`, `Catalog.C252_wrong_table`, `Codec.C19_full_false`, `Codec.C19_partial`, `Codec.C19_small_partial`, `Codec.C20_full_false`, `Codec.C20_partial`, `Codec.C91`, `Concurrent.C221_partial`, `Concurrent.C221_scripts_partial`, `Concurrent.C222_partial`, `Concurrent.C223_partial`, `Concurrent.alone_exec`, `Constraints.C276_partial`, `Current.C76_full_false`, `Current.C76_partial`, `Current.C76_range_false`, `Cursors.C254_iff`, `Cursors.C254_left`, `Cursors.C254_partial`, `Cursors.C255_cleanup`, `Cursors.C255_iff`, `Cursors.C255_partial`, `Date.C46_days_partial`, `Date.C46_full_false`, `Date.C46_weeks`, `Date.C47_datetime_partial`, `Date.C47_full_false`, `Date.C47_month_year_partial`, `Date.C47_quarter_partial`, `Date.C48_full_false`, `Date.C48_idempotent_partial`, `Date.C48_isoweek_never`, `Date.C48_isoyear_partial`, `Date.C48_trunc_partial`, `Date.C49_full_false`, `Date.C49_isoweek_never`, `Date.C49_isoyear_partial`, `Date.C49_week_partial`, `Date.C49_year_month_partial`, `Date.C50_antisymmetric_partial`, `Date.C50_datetime_day_wrong`, `Date.C50_datetime_partial`, `Date.C50_day_partial`, `Date.C50_diff_partial`, `Date.C50_full_false`, `Date.C50_isoweek_false`, `Date.C50_isoweek_iff`, `Date.C50_isoweek_partial`, `Date.C51_date_partial`, `Date.C51_full_false`, `Date.C51_quarter_partial`, `Date.C51_rebuild_partial`, `Date.C51_week_false`, `Date.C51_week_partial`, `Date.C52_full_false`, `Date.C52_minute_hour_partial`, `Date.C52_ms_second_partial`, `Date.C52_timestamp_partial`, `Date.C53_floor`, `Date.C53_inverse_partial`, `Date.C83_add_partial`, `Date.C83_full_false`, `Date.C83_inverse_partial`, `Date.C92_datetime_partial`, `Date.C92_full_false`, `Date.C92_timestamp_partial`, `Date.dateFromUnixDate_iff`, `Date.moved_unique`, `Engine.C80_iff`, `Engine.C81_script_partial`, `Float.C159_partial`, `Float.C160_partial`, `Float.C161_ceil`, `Float.C161_floor`, `Float.C161_trunc`, `Float.C162_full_false`, `Float.C162_partial`, `Float.C163_partial`, `Float.C165_partial`, `Float.C166_compare`, `Float.C166_greatest`, `Float.C166_least`, `Float.C167_full_false`, `Float.C167_never`, `Float.C169_full_false`, `Float.C169_partial`, `Float.C170_partial`, `Float.C235_exact`, `Float.C235_partial`, `Float.C236`, `Float.C237_exact`, `Float.C237_partial`, `Float.C238_abs_bound`, `Float.C238_bound_sharp`, `Float.C238_floor_wrong`, `Float.C238_full_false`, `Float.C238_partial`, `Float.C238_sign`, `Float.C238_whole`, `Float.C239_div_partial`, `Float.C239_div_wrong`, `Float.C239_full_false`, `Float.C239_mod_partial`, `Float.C239_mod_wrong`, `FloatCodec.C269_err`, `FloatCodec.C269_full_false`, `FloatCodec.C269_iff`, `Format.C113_full_false`, `Format.C113_partial`, `Format.C114_full_false`, `Format.C114_partial`, `Format.C125`, `Format.C71_full_false`, `Format.C71_partial`, `GroupKey.C284_float_iff`, `GroupKey.C284_full_false`, `GroupKey.C284_iff`, `GroupKey.C284_partial`, `Hash.C262`, `Interval.C293_full_false`, `Interval.C293_partial`, `Interval.C56_days_partial`, `Interval.C56_days_unchanged`, `Interval.C56_hours_partial`, `Interval.C56_hours_unchanged`, `Interval.C56_interval_partial`, `Interval.C84_partial`, `Interval.C85_months_partial`, `Interval.C85_short_partial`, `Interval.C86_back_partial`, `Interval.C86_full_false`, `Interval.C86_partial`, `JavaScript.C229_array_panics`, `JavaScript.C229_convert`, `JavaScript.C229_full_false`, `JavaScript.C229_never_bignumeric`, `JavaScript.C229_never_null`, `JavaScript.C229_null`, `JavaScript.C229_numeric_lost`, `JavaScript.C229_partial`, `JavaScript.C229_timestamp`, `JavaScript.C229_undefined`, `JsonFuncs.C193_full_false`, `JsonFuncs.C193_partial`, `JsonFuncs.C194_full_false`, `JsonFuncs.C194_partial`, `JsonFuncs.C195_full_false`, `JsonFuncs.C195_partial`, `JsonFuncs.C196`, `JsonFuncs.C197_full_false`, `JsonFuncs.C197_partial`, `JsonFuncs.C198_full_false`, `JsonFuncs.C198_partial`, `JsonFuncs.C199_full_false`, `JsonFuncs.C199_partial`, `JsonFuncs.C200_full_false`, `JsonFuncs.C200_partial`, `JsonFuncs.C201_full_false`, `JsonFuncs.C201_partial`, `JsonFuncs.C261`, `JsonFuncs.C261_query`, `Like.C29_line_iff`, `Like.C29_pattern_iff`, `Literal.C110`, `Literal.C111_full_false`, `Literal.C111_partial`, `Literal.C111_uint_false`, `Literal.C260_empty`, `Literal.C260_empty_key`, `Literal.C260_full_false`, `Literal.C260_order`, `Literal.C260_partial`, `Logic.C24_nested_order_reversed`, `Logic.C24_nested_partial`, `Logic.C24_scalar_partial`, `Logic.C25_distinct`, `Logic.C26_in_iff`, `Logic.C26_in_partial`, `Logic.C26_true_partial`, `Logic.C26_unnest_iff`, `Logic.C26_unnest_partial`, `Logic.C27_nullif_iff`, `Logic.C27_nullif_partial`, `Logic.C28_between_partial`, `Logic.C28_iff`, `Logic.C28_where_partial`, `MathFuncs.C264_exact`, `MathFuncs.C264_full_false`, `MathFuncs.C264_pow_zero`, `Memory.C296_partial`, `Merge.C120_by_source_never`, `Merge.C120_partial`, `Merge.C121_partial`, `NamePath.C01_fully_qualified`, `NamePath.C02_empty_name`, `NamePath.C02_resolution_shape`, `NamePath.C03_resolve_idempotent`, `NamePath.C04_add_accepts`, `NamePath.C04_bounded_partial`, `NamePath.C04_failed_call_changes_nothing`, `NamePath.C04_full_false`, `NamePath.C04_max_never_unset`, `NamePath.C04_set_accepts`, `NamePath.C04_successful_call`, `NamePath.C05_full_false`, `Net.C224_full_false`, `Net.C224_partial`, `Net.C224_zone_partial`, `Net.C225`, `Net.C225_injective`, `Net.C68_net_mask`, `Net.C68_text_canonical`, `Net.C68_text_roundtrip`, `Net.C68_trunc`, `Net.C68_trunc_fixed`, `Net.C68_trunc_idempotent`, `NetHost.C227`, `NetHost.C228_full_false`, `NetHost.demo_web`, `Normalize.C267_exact`, `Normalize.C267_full_false`, `Normalize.C267_iff`, `Numeric.C70_div_zero_counterexample`, `Numeric.C70_full_false`, `Numeric.C70_generate_array`, `Numeric.C70_generate_array_ends`, `Numeric.C70_generate_array_never`, `Numeric.C70_partial`, `Numeric.C70_range_both`, `Numeric.C70_range_counterexample`, `Numeric.C70_range_end`, `Numeric.C70_range_partial`, `Numeric.C70_sql`, `Numeric.C70_sum`, `OrderBy.C32_item`, `OrderBy.C32_rows`, `OrderCollate.C282_full_false`, `OrderCollate.C282_iff`, `OrderCollate.C282_rows_iff`, `Params.C17_exact`, `Params.C17_iff`, `Params.C17_last_wins`, `Params.C17_named_by_name_partial`, `Params.C17_order_irrelevant`, `Params.C17_too_few`, `Params.C18_iff`, `Params.C18_positional_partial`, `Params.C18_repeat`, `ParseNumeric.C105_dirty`, `ParseNumeric.C105_exact_partial`, `ParseNumeric.C226_fraction`, `ParseNumeric.C226_full_false`, `ParseNumeric.C226_null_panics`, `ParseNumeric.C226_other_notations`, `ParseNumeric.C226_partial`, `ParseNumeric.C226_third`, `ParseNumeric.C226_zero_denominator`, `Prepared.C123_partial`, `Printable.C277_backslash`, `Printable.C277_bytes_iff`, `Printable.C277_full_false`, `Printable.C277_num`, `Printable.C277_partial`, `Printable.C277_quote`, `Printable.C277_str`, `Printable.C277_struct`, `Printable.C277_timestamp_iff`, `Printable.C278_bytes_iff`, `Printable.C278_full_false`, `Printable.C278_partial`, `Printable.C278_timestamp_iff`, `Query.C134_full_false`, `Query.C134_partial`, `Query.C135_full_false`, `Query.C135_limit`, `Query.C135_partial`, `Query.C136_full_false`, `Query.C136_nested`, `Query.C136_partial`, `Query.C137_full_false`, `Query.C137_inner`, `Query.C137_nonempty`, `Query.C137_partial`, `Query.C138_full_false`, `Query.C138_no_group`, `Query.C138_partial`, `Query.C139_all`, `Query.C139_full_false`, `Query.C139_partial`, `Query.C139_twice`, `Query.C140_full_false`, `Query.C140_nested`, `Query.C140_partial`, `Query.C140_self`, `Query.C141_first`, `Query.C141_full_false`, `Query.C141_partial`, `Query.C142`, `Query.C144`, `Query.C145`, `Query.C146`, `Query.C147`, `Query.C148`, `Query.C151`, `Query.C152`, `Query.C153`, `Query.C154_full_false`, `Query.C154_partial`, `Query.C154_same`, `Query.C155_error`, `Query.C155_from`, `Query.C155_full_false`, `Query.C155_partial`, `Query.C155_rows`, `Query.C156_full_false`, `Query.C156_partial`, `Query.C156_rows`, `Query.C157_full_false`, `Query.C157_partial`, `Query.C157_rows`, `Query.C158_full_false`, `Query.C158_ifNotExists`, `Query.C158_ifNotExists_wrong`, `Query.C158_partial`, `Query.C158_self`, `Query.C176_full_false`, `Query.C176_partial`, `Query.C177`, `Query.C178_empty_over`, `Query.C178_full_false`, `Query.C178_nulls`, `Query.C178_partial`, `Query.C179`, `Query.C180_full_false`, `Query.C180_partial`, `Query.C230_broken`, `Query.C230_circular`, `Query.C230_example`, `Query.C230_full_false`, `Query.C230_partial`, `Query.C230_refused`, `Query.C230_success`, `Query.C253_delete`, `Query.C253_full_false`, `Query.C253_last`, `Query.C253_select`, `Query.C253_update`, `Query.C253_values`, `Query.C253_zero`, `Query.C258_full_false`, `Query.C258_iff`, `Query.C258_partial`, `Regexps.C209_full_false`, `Regexps.C210_full_false`, `Regexps.C211_full_false`, `Regexps.C212_full_false`, `Regexps.C213_dollar_false`, `Regexps.C213_full_false`, `Registry.C31_full_false`, `Registry.C31_safe_add_ambiguous`, `Rows.C107`, `Rows.C108_full_false`, `Rows.C108_ints`, `Rows.C108_ints_iff`, `Rows.C108_partial`, `Rows.C109_anonymous_false`, `Rows.C109_full_false`, `Rows.C109_partial`, `Rows.C109_timestamp_false`, `Rows.C77`, `Spec.civil_next`, `Strings.C288_full_false`, `Strings.C288_iff`, `Strings.C288_join`, `Strings.C57_ascii_partial`, `Strings.C57_bytes`, `Strings.C57_full_false`, `Strings.C57_iff`, `Strings.C57_string_partial`, `Strings.C57_string_wrong`, `Strings.C58_full_false`, `Strings.C58_pad_bytes_partial`, `Strings.C58_pad_string`, `Strings.C59_bad_bytes`, `Strings.C59_text_partial`, `Strings.C60_split`, `Strings.C60_split_bytes`, `Strings.C61_code_points_partial`, `Strings.C61_full_false`, `Strings.C62_bytes_partial`, `Strings.C62_full_false`, `Strings.C62_string_partial`, `Strings.C63_instr_ascii_partial`, `Strings.C63_instr_bytes_partial`, `Strings.C63_strpos_partial`, `Structs.C245`, `Structs.C246_full_false`, `Structs.C246_named`, `Structs.C246_partial`, `Structs.C246_tuple`, `Structs.C246_wrong`, `Templated.C233_partial`, `Templated.C233_regular`, `Templated.C233_returns`, `Templated.C234_partial`, `TimeFormat.C116_full_false`, `TimeFormat.C116_partial`, `TimeFormat.C117_full_false`, `TimeFormat.C117_partial`, `TimeFormat.C117_quarter`, `TimeFormat.C118`, `TimeFormat.C119`, `TimeFormat.C127_full_false`, `TimeFormat.C127_partial`, `TimeFormat.C127_read`, `TimeFormat.C128_full_false`, `TimeFormat.C128_partial`, `TimeFormat.C129`, `TimeFormat.C130`, `TimeFormat.C131_full_false`, `TimeFormat.C131_partial`, `TimeFormat.C131_read`, `TimeFormat.C132`, `TimeFormat.C287_back`, `TimeFormat.C287_end`, `TimeFormat.C287_full_false`, `TimeFormat.C287_iff`, `TimeFormat.C287_text`, `TimeFormat.C54_full_false`, `TimeFormat.C54_late_year`, `TimeFormat.C54_partial`, `TimeFormat.C54_short_year`, `TimestampText.C21_injective`, `TimestampText.C21_roundtrip`, `TimestampText.C22_decimal_partial`, `TimestampText.C22_exact`, `TimestampText.C22_iff`, `TimestampText.C22_negative`, `ToJson.C189_full_false`, `ToJson.C189_partial`, `ToJson.C189_string`, `ToJson.C189_times`, `ToJson.C190_full_false`, `ToJson.C190_partial`, `ToJson.C191_full_false`, `ToJson.C191_never`, `ToJson.C191_partial`, `ToJson.C192`, `TypeParams.C283_full_false`, `TypeParams.C283_insert_iff`, `TypeParams.C283_numeric_iff`, `TypeParams.C283_string_iff`, `TypeSpec.C75`, `TypeSpec.C75_distinct`, `Udf.C74_argument_counterexample`, `Wildcard.C73_empty_suffix_counterexample`, `Window.C38_window_full_false`, `Window.C38_window_partial`, `Window.C39_bijection`, `Window.C39_null_key_unspecified`, `Window.C39_partial`, `Window.C40_dense_iff`, `Window.C40_full_false`, `Window.C40_partial`, `Window.C40_rank_iff`, `Window.C40_rank_zero`, `Window.C41_full_false`, `Window.C41_nonpositive`, `Window.C41_partial`, `Window.C41_wrong`, `Window.C42_exact`, `Window.C42_full_false`, `Window.C42_iff`, `Window.C42_partial`, `Window.C43_end_iff`, `Window.C43_full_false`, `Window.C43_partial`, `Window.C43_start_iff`, `Window.C44_full_false`, `Window.C44_iff`, `Window.C44_partial`, `Window.C45_collision`, `Window.goodParts_columns`, `Window.goodParts_ints`, `WindowAgg.C202_full_false`, `WindowAgg.C202_iff`, `WindowAgg.C202_partial`, `WindowAgg.C202_reversed`, `WindowAgg.C203_full_false`, `WindowAgg.C203_partial`, `WindowAgg.C204_full_false`, `WindowAgg.C204_partial`, `WindowAgg.C205_partial`, `WindowAgg.C206_full_false`, `WindowAgg.C206_outside_partial`, `WindowAgg.C206_partial`, `WindowAgg.C207_full_false`, `WindowAgg.C207_partial`, `WindowAgg.C208_full_false`, `WindowAgg.C208_partial`, `WindowAgg.C208_skipped`, `WindowAgg.C208_whole_partial`, `WindowAgg.C291_full_false`, `WindowAgg.C291_partial`, `WindowAgg.C292_full_false`, `WindowAgg.C292_partial`, `WindowAgg.C292_skipped`, `WindowAgg.C292_whole_partial`, `WindowStat.C171_full_false`, `WindowStat.C171_iff`, `WindowStat.C171_partial`, `WindowStat.C172_full_false`, `WindowStat.C172_iff`, `WindowStat.C172_partial`, `WindowStat.C173_divisor`, `WindowStat.C173_frame`, `WindowStat.C173_full_false`, `WindowStat.C173_iff`, `WindowStat.C173_partial`, `WindowStat.C173_rows_iff`, `WindowStat.C174_max_zero`, `WindowStat.C174_partial`, `WindowStat.C175_empty`, `WindowStat.C175_full_false`, `WindowStat.C175_partial`, `Words.C214_default_partial`, `Words.C214_full_false`, `Words.C215_case_false`, `Words.C215_full_false`, `Words.C215_partial`, `Words.C216_partial`, `Words.C217`, `Words.C218_full_false`, `Words.C218_partial`, `Words.C219`, `Words.C220`, `Zone.C55_full_false`, `Zone.C55_offset_partial`, `Zoned.C240_carry`, `Zoned.C240_partial`, `Zoned.C240_wrong`, `Zoned.C241_date`, `Zoned.C241_full_false`, `Zoned.C241_partial`, `Zoned.C241_shows`, `Zoned.C241_split`, `Zoned.C241_text`, `Zoned.C242_full_false`, `Zoned.C242_partial`, `Zoned.C242_utc`, `Zoned.C243_add_fixed`, `Zoned.C243_add_partial`, `Zoned.C243_clock_partial`, `Zoned.C243_literal_partial`, `Zoned.C243_unix_partial`, `Zoned.C244_fixed`, `Zoned.C244_long_partial`, `Zoned.C244_partial`, `Zoned.C244_shows_partial`

(The prefix `Verif.` is left out.)
