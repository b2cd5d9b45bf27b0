{"id": "C01", "title": "Comment stripping removes exactly the comments", "statement": "For every source text, decommenting keeps each line up to (not including) the first '#' that has an even number of '\"' characters before it on that line, keeps the whole line if there is none, and joins the lines with single spaces; the output never contains a newline.", "quantifier": "every source text (any characters, any number of lines)", "why_tests_cant": "Depends on every placement of quotes, hashes and line ends; tests sample five strings.", "anchors": ["src/input.rs:strip_comments"]}
{"id": "C02", "title": "Comment stripping never alters a string literal", "statement": "For every script, the text between the quotes of a string literal of the language (including one with escaped quotes) reaches the parser unchanged.", "quantifier": "every string literal the grammar accepts, at every position in a line", "why_tests_cant": "Needs all string bodies, including escapes and '#'.", "anchors": ["src/input.rs:strip_comments", "src/lang/parse.rs:string"]}
{"id": "C03", "title": "REPL input always ends in a statement terminator", "statement": "For every line, the fixed-up line ends in ';' (ignoring trailing whitespace), is the line itself (with continuations removed) possibly followed by one ';', and fixing it up again changes nothing.", "quantifier": "every input line", "why_tests_cant": "All strings and all kinds of trailing whitespace.", "anchors": ["src/input.rs:fixup_input"]}
{"id": "C04", "title": "Backslash-newline continues a REPL line", "statement": "For every REPL entry made of several physical lines joined by a trailing backslash, the text given to the parser contains no trace of the continuation backslashes.", "quantifier": "every multi-line REPL entry", "why_tests_cant": "The two cleaning passes are tested separately, never composed.", "anchors": ["src/input.rs:strip_comments", "src/input.rs:fixup_input", "src/main.rs:repl"]}
{"id": "C05", "title": "Printing an expression and parsing it back is the identity", "statement": "For every expression tree respecting the documented precedence ladder (with explicit parenthesis nodes), its textual form parses to exactly that tree, so precedence and associativity are as documented.", "quantifier": "every expression tree of any depth", "why_tests_cant": "Infinitely many trees; tests check a few dozen.", "anchors": ["src/lang/parse.rs:expr", "src/lang/parse.rs:or_expr", "src/lang/parse.rs:unary_expr", "src/lang/parse.rs:postfix_expr", "src/lang/parse.rs:primary_expr"]}
{"id": "C06", "title": "Printing a program and parsing it back is the identity", "statement": "For every program (assignments, blocks nested to any depth, jumps, builtins, expression statements) over such expressions, its textual form parses to exactly that program.", "quantifier": "every program of any length and nesting depth", "why_tests_cant": "Infinitely many programs.", "anchors": ["src/lang/parse.rs:parse", "src/lang/parse.rs:stmts", "src/lang/parse.rs:stmt", "src/lang/parse.rs:block_stmt"]}
{"id": "C07", "title": "Whitespace between tokens is insignificant", "statement": "Any amount of space, tab, carriage return or newline between the tokens of an expression leaves the parsed tree unchanged.", "quantifier": "every expression tree and every choice of whitespace at every token boundary", "why_tests_cant": "Unbounded choices of whitespace.", "anchors": ["src/lang/parse.rs:space", "src/lang/parse.rs:expr"]}
{"id": "C08", "title": "Integer literals denote their decimal value or are rejected", "statement": "A digit string without leading zeros parses to its decimal value exactly when that value fits a signed 128-bit integer; otherwise the program is rejected, never truncated.", "quantifier": "every digit string", "why_tests_cant": "2^127 values and all longer ones.", "anchors": ["src/lang/parse.rs:constant"]}
{"id": "C09", "title": "String literals denote their contents", "statement": "For every text, escaping quotes, backslashes and control characters and quoting it yields a literal that parses to exactly that text.", "quantifier": "every text", "why_tests_cant": "All strings.", "anchors": ["src/lang/parse.rs:string"]}
{"id": "C10", "title": "The parser terminates and consumes all its input", "statement": "On every input the parser returns; every repeated grammar rule consumes at least one character per iteration; and an accepted program has been consumed to its last character.", "quantifier": "every input text", "why_tests_cant": "Termination over all inputs.", "anchors": ["src/lang/parse.rs:parse", "src/lang/parse.rs:stmts"]}
{"id": "C11", "title": "Every identifier can be used as a variable", "statement": "For every identifier other than the language's keywords, a reference to it parses as that identifier and an assignment to it parses as an assignment.", "quantifier": "every identifier", "why_tests_cant": "All names; a PEG commits to keyword prefixes.", "anchors": ["src/lang/parse.rs:constant", "src/lang/parse.rs:ident", "src/lang/parse.rs:stmt"]}
{"id": "C12", "title": "Compound assignment is plain assignment", "statement": "`l += e` and `l -= e` mean exactly `l = l + e` and `l = l - e` for every left-hand side and expression.", "quantifier": "every left-hand side and right-hand side expression", "why_tests_cant": "All pairs of expressions.", "anchors": ["src/lang/parse.rs:assign_stmt"]}
{"id": "C13", "title": "Scoped variables behave as a stack of maps", "statement": "Reading a variable after any sequence of scope pushes, pops and assignments yields the innermost binding; assigning an existing variable updates that binding in place and assigning a new one creates it in the innermost scope; other variables are unaffected.", "quantifier": "every sequence of scope operations and every variable name", "why_tests_cant": "All histories.", "anchors": ["src/lang/variables.rs:Variables"]}
{"id": "C14", "title": "Blocks do not leak variables", "statement": "Executing any if/while/for statement, whatever happens inside (errors, break, continue, quit), leaves the set of defined variables exactly as before the statement.", "quantifier": "every block statement, every starting state, every way of leaving the block", "why_tests_cant": "All programs and exits.", "anchors": ["src/lang/eval/eval.rs:eval_statement", "src/lang/variables.rs:push_scope", "src/lang/variables.rs:pop_scope"]}
{"id": "C15", "title": "Scope stack is balanced", "statement": "After evaluating any program, however it ends, only the scopes that existed before remain.", "quantifier": "every program and state", "why_tests_cant": "All control-flow paths.", "anchors": ["src/lang/eval/eval.rs:eval_statement", "src/lang/semantics.rs:analyze_block_stmt"]}
{"id": "C16", "title": "Accepted programs never leak a jump", "statement": "If semantic analysis accepts a program, evaluating it never ends in an unhandled break/continue, for any state and history.", "quantifier": "every program, every REPL history", "why_tests_cant": "All programs.", "anchors": ["src/lang/semantics.rs:analyze_stmt", "src/lang/eval/eval.rs:into_eval_result"]}
{"id": "C17", "title": "Accepted programs never panic on a type cast", "statement": "If semantic analysis accepts a program, evaluating it never reaches the 'semantic analysis failed' panic or the failed struct lookup of a type cast.", "quantifier": "every accepted program, every state", "why_tests_cant": "All programs.", "anchors": ["src/lang/semantics.rs:analyze_unary_expr", "src/lang/eval/eval.rs:eval_unary_expr"]}
{"id": "C18", "title": "Analyzer state survives rejected input", "statement": "After analysing any program, accepted or rejected, the analyzer is back at loop depth 0 with one scope, and every variable it knew is still known, so a rejected line cannot change how later lines are judged except by adding variables.", "quantifier": "every sequence of analysed programs", "why_tests_cant": "All histories, including failures half-way through nested blocks.", "anchors": ["src/lang/semantics.rs:SemanticAnalyzer"]}
{"id": "C19", "title": "Use before assignment is rejected", "statement": "If semantic analysis accepts a program, evaluating it never fails with 'Unknown variable'.", "quantifier": "every program and REPL history", "why_tests_cant": "All programs and paths.", "anchors": ["src/lang/semantics.rs:analyze_expr", "src/lang/semantics.rs:analyze_stmt", "src/lang/eval/eval.rs:eval_primary_expr"]}
{"id": "C20", "title": "A variable that exists is never reported unknown", "statement": "In every REPL session, a global variable that evaluation has successfully defined is known to the analyzer in all later lines.", "quantifier": "every session (any sequence of lines, including failing ones)", "why_tests_cant": "All histories.", "anchors": ["src/lang/semantics.rs:analyze", "src/lang/runtime.rs:Runtime"]}
{"id": "C21", "title": "Rejected input has no effect", "statement": "If a line fails to parse or is rejected by semantic analysis, nothing is printed, no variable and no selected filesystem changes; if it fails to parse the analyzer is unchanged too.", "quantifier": "every line and every session state", "why_tests_cant": "All inputs and states.", "anchors": ["src/lang/runtime.rs:Runtime::eval"]}
{"id": "C22", "title": "Arithmetic is exact or fails", "statement": "For all 128-bit integers, `+`, `-`, `*`, `/`, `%` and unary `-` either give the exact mathematical result (division truncating toward zero) or fail with an error; they never wrap.", "quantifier": "all pairs of 128-bit integers", "why_tests_cant": "2^256 pairs.", "anchors": ["src/lang/eval/eval.rs:eval_binop_expr", "src/lang/eval/eval.rs:eval_unary_expr"]}
{"id": "C23", "title": "All integers stay within 128 bits", "statement": "Every integer value reachable in any state of any session fits in a signed 128-bit integer.", "quantifier": "every session", "why_tests_cant": "All histories.", "anchors": ["src/lang/eval/eval.rs:Eval", "src/lang/eval/value.rs:Value"]}
{"id": "C24", "title": "Division and remainder agree", "statement": "Whenever `a / b` and `a % b` succeed, a = (a / b) * b + a % b, |a % b| < |b| and the remainder has the sign of the dividend; dividing by zero always fails.", "quantifier": "all 128-bit integers a, b", "why_tests_cant": "2^256 pairs.", "anchors": ["src/lang/eval/eval.rs:eval_binop_expr"]}
{"id": "C25", "title": "Bitwise operators act bit by bit on two's complement", "statement": "`&`, `|`, `^`, `~` compute each of the 128 two's-complement bits independently from the corresponding bits of the operands.", "quantifier": "all 128-bit integers, all bit positions", "why_tests_cant": "2^256 pairs.", "anchors": ["src/lang/eval/eval.rs:eval_binop_expr", "src/lang/eval/eval.rs:eval_unary_expr"]}
{"id": "C26", "title": "Shifts multiply and divide by powers of two or fail", "statement": "`a << n` is a*2^n and `a >> n` is floor(a / 2^n) for every shift amount they accept; negative amounts and amounts of 128 or more fail; results that do not fit fail.", "quantifier": "all 128-bit integers a and n", "why_tests_cant": "2^256 pairs.", "anchors": ["src/lang/eval/eval.rs:eval_binop_expr"]}
{"id": "C27", "title": "Logical operators are lazy and boolean", "statement": "`false && e` is false and `true || e` is true for every expression e, even one that would fail; otherwise the result is the value of e and e must be boolean.", "quantifier": "every expression and state", "why_tests_cant": "All expressions.", "anchors": ["src/lang/eval/eval.rs:eval_binop_expr"]}
{"id": "C28", "title": "Equality is structural equality", "statement": "`a == b` is true exactly when the two values are identical (same kind, same contents, same key), `!=` is its negation, for values of any shape and depth.", "quantifier": "all pairs of values", "why_tests_cant": "All nested values.", "anchors": ["src/lang/eval/eval.rs:eval_binop_expr", "src/lang/eval/value.rs:Value"]}
{"id": "C29", "title": "Ordering comparisons are a total order on integers", "statement": "`<`, `<=`, `>`, `>=` agree with the order of the integers and fail on any non-integer operand.", "quantifier": "all pairs of values", "why_tests_cant": "All integers.", "anchors": ["src/lang/eval/eval.rs:eval_binop_expr"]}
{"id": "C30", "title": "Parentheses do not change meaning", "statement": "Wrapping any subexpression in parentheses changes neither the value nor the error of an expression.", "quantifier": "every expression and state", "why_tests_cant": "All expressions.", "anchors": ["src/lang/eval/eval.rs:eval_primary_expr"]}
{"id": "C31", "title": "Assignment updates exactly one variable", "statement": "After `x = e` succeeds, x has the value of e and every other variable is unchanged; after it fails nothing is changed.", "quantifier": "every expression, variable and state", "why_tests_cant": "All states.", "anchors": ["src/lang/eval/eval.rs:eval_statement"]}
{"id": "C32", "title": "Partial assignment: read back what was written, nothing else changes", "statement": "After a successful assignment to a field/index path, reading the path gives the assigned value, every other variable is unchanged, and so is every component not on the path; a failing one changes nothing.", "quantifier": "every path of field accesses and indexes, every value, every state", "why_tests_cant": "Paths of any depth.", "anchors": ["src/lang/eval/eval.rs:eval_lhs_assign", "src/lang/eval/value.rs:field_mut"]}
{"id": "C33", "title": "Values are copied, not shared", "statement": "After `y = x`, no assignment to x or to any part of x changes y.", "quantifier": "every value and every sequence of later assignments", "why_tests_cant": "All aliasing patterns.", "anchors": ["src/lang/eval/eval.rs:eval_statement"]}
{"id": "C34", "title": "Loops iterate as written", "statement": "`while` re-evaluates its condition before each iteration and stops at the first false; `continue` skips the rest of one iteration, `break` ends the loop, and a loop statement itself never yields break or continue.", "quantifier": "every condition, body and state", "why_tests_cant": "All loop executions.", "anchors": ["src/lang/eval/eval.rs:eval_while"]}
{"id": "C35", "title": "For visits a snapshot of the array in order", "statement": "`for v in e` evaluates e once and runs the body once per element in order, whatever the body does to the array variable.", "quantifier": "every array, body and state", "why_tests_cant": "All arrays and bodies.", "anchors": ["src/lang/eval/eval.rs:eval_for"]}
{"id": "C36", "title": "If runs exactly one branch", "statement": "`if` evaluates its condition once and runs only the matching branch; a non-boolean condition is an error.", "quantifier": "every condition, branches, state", "why_tests_cant": "All programs.", "anchors": ["src/lang/eval/eval.rs:eval_if"]}
{"id": "C37", "title": "Quit stops everything", "statement": "Once a quit statement is reached, at any nesting depth, nothing more is evaluated or printed and the result is quit.", "quantifier": "every program", "why_tests_cant": "All programs and nestings.", "anchors": ["src/lang/eval/eval.rs:eval_builtin", "src/lang/eval/eval.rs:eval"]}
{"id": "C38", "title": "Output only grows and errors keep earlier effects", "statement": "Evaluation only appends to the output; when a statement fails the effects and output of the statements before it remain and no later statement runs.", "quantifier": "every program and state", "why_tests_cant": "All programs.", "anchors": ["src/lang/eval/eval.rs:eval", "src/lang/eval/eval.rs:eval_statement"]}
{"id": "C39", "title": "Expression statements print only interactively", "statement": "A script never prints from an expression statement and such a statement changes no variable; interactively it prints the value followed by a newline.", "quantifier": "every expression and state", "why_tests_cant": "All expressions.", "anchors": ["src/lang/eval/eval.rs:eval_statement"]}
{"id": "C40", "title": "Splitting a program over several evaluations changes nothing", "statement": "Evaluating p1 then p2 in one session gives the same state, output and result as evaluating p1;p2 at once whenever p1 succeeds.", "quantifier": "every pair of programs", "why_tests_cant": "All programs.", "anchors": ["src/lang/eval/eval.rs:eval", "src/lang/runtime.rs:eval"]}
{"id": "C41", "title": "Printed strings are lossless printable text", "statement": "Printing a byte string never fails, yields only ASCII text, and different byte strings print differently (with whitespace either escaped or raw).", "quantifier": "every byte string", "why_tests_cant": "All byte strings.", "anchors": ["src/lang/eval/value.rs:as_string"]}
{"id": "C42", "title": "Displaying any value succeeds", "statement": "Formatting any value, nested to any depth, never panics and produces only ASCII text.", "quantifier": "every value", "why_tests_cant": "All nested values.", "anchors": ["src/lang/eval/value.rs:Display"]}
{"id": "C43", "title": "Histogram counts every value", "statement": "Printing a histogram of integers shows contiguous power-of-two buckets in which every value added to the histogram is counted exactly once.", "quantifier": "every list of integers", "why_tests_cant": "All multisets of 128-bit integers.", "anchors": ["src/lang/eval/value.rs:as_hist"]}
{"id": "C44", "title": "Power-of-two rounding is exact and terminates", "statement": "Rounding down (resp. strictly up) to a power of two terminates for every 128-bit integer and returns the greatest power of two not above it (resp. the least one strictly above it), with the mirrored rule for negative numbers.", "quantifier": "all 128-bit integers", "why_tests_cant": "2^128 values.", "anchors": ["src/lang/eval/value.rs:previous_power_2", "src/lang/eval/value.rs:next_power_2"]}
{"id": "C45", "title": "Histogram bars fit", "statement": "Every bar drawn is at most 50 characters wide and the bucket labels never trip the internal power-of-two assertion.", "quantifier": "every list of integers", "why_tests_cant": "All lists.", "anchors": ["src/lang/eval/value.rs:as_hist", "src/lang/eval/value.rs:num_bytes_to_pretty"]}
{"id": "C46", "title": "Arrays append, index and measure consistently", "statement": "Appending increases len by one, leaves earlier elements in place and puts the new element last; indexing succeeds exactly for 0 <= i < len.", "quantifier": "every array, value and index", "why_tests_cant": "All arrays.", "anchors": ["src/lang/eval/eval.rs:eval_binop_expr", "src/lang/eval/eval.rs:eval_expr", "src/lang/eval/eval.rs:eval_function"]}
{"id": "C47", "title": "key() builds the documented search key", "statement": "key(a,b,c,d) succeeds exactly on four integers and yields a search key whose minima are a,b,c,d and whose maxima are the largest representable values.", "quantifier": "all argument values", "why_tests_cant": "All integers.", "anchors": ["src/lang/eval/eval.rs:eval_function"]}
{"id": "C48", "title": "keyof() returns the disk key of a search result", "statement": "keyof of every element returned by search() yields the key reported by the kernel for that item, also after the element was copied into variables; structs without a disk key are an error.", "quantifier": "every search result", "why_tests_cant": "All search results.", "anchors": ["src/lang/eval/eval.rs:eval_function"]}
{"id": "C49", "title": "search() never truncates its arguments", "statement": "A search whose tree id or key bounds do not fit the kernel's field widths fails instead of searching for something else.", "quantifier": "all argument values", "why_tests_cant": "All integers.", "anchors": ["src/lang/eval/eval.rs:eval_function"]}
{"id": "C50", "title": "Decoding never panics", "statement": "Interpreting arbitrary bytes as any struct the tool knows either succeeds or returns an error.", "quantifier": "every known struct, every byte string", "why_tests_cant": "All byte strings.", "anchors": ["src/lang/eval/value.rs:from_bytes", "src/lang/eval/value.rs:to_value", "src/btrfs/definitions.rs:STRUCTS"]}
{"id": "C51", "title": "Fixed-size structs decode exactly when enough bytes are present", "statement": "A struct of statically known size decodes successfully if and only if at least size-many bytes are given, and bytes beyond its size do not influence the result.", "quantifier": "every statically sized struct description, every byte string", "why_tests_cant": "All descriptions and bytes.", "anchors": ["src/lang/eval/value.rs:from_bytes", "src/btrfs/structs.rs:Struct"]}
{"id": "C52", "title": "Decoding reads each field at its packed offset, little endian", "statement": "The value of each field is the little-endian integer (or nested value) stored at the sum of the sizes of the fields before it; union members all start at the union's offset.", "quantifier": "every statically sized struct description and byte string", "why_tests_cant": "All layouts and contents.", "anchors": ["src/lang/eval/value.rs:from_bytes", "src/lang/eval/value.rs:to_value", "src/btrfs/structs.rs:size"]}
{"id": "C53", "title": "Decoding is lossless", "statement": "For every union-free fixed-size struct description, encoding the decoded value gives back the bytes, so two different on-disk images never look the same.", "quantifier": "every such description and byte string", "why_tests_cant": "All byte strings.", "anchors": ["src/lang/eval/value.rs:to_value"]}
{"id": "C54", "title": "Trailing names and arrays have the recorded length", "statement": "When a struct with a trailing string or trailing array decodes, the string length or element count equals the value of its length field and the bytes are the ones right after the preceding fields; too few bytes is an error.", "quantifier": "every known struct with trailing data, every byte string", "why_tests_cant": "All byte strings.", "anchors": ["src/lang/eval/value.rs:from_bytes"]}
{"id": "C55", "title": "Extent items tile their bytes", "statement": "When a btrfs_extent_item decodes, its header and inline references cover the given bytes exactly, and the scan over them always terminates.", "quantifier": "every byte string", "why_tests_cant": "All byte strings.", "anchors": ["src/btrfs/definitions.rs:btrfs_extent_item", "src/lang/eval/value.rs:from_bytes"]}
{"id": "C56", "title": "Every field of a decoded struct is accessible by name", "statement": "For every decoded struct, accessing each of its fields by name gives the value decoded for that field.", "quantifier": "every known struct and byte string", "why_tests_cant": "All byte strings; depends on name uniqueness of dynamic layouts.", "anchors": ["src/lang/eval/value.rs:field", "src/btrfs/definitions.rs:STRUCTS"]}
{"id": "C57", "title": "Each disk key selects one struct layout", "statement": "For every key the layout chosen for a search result is the one documented for that item type.", "quantifier": "all (objectid, type, offset) keys", "why_tests_cant": "All keys.", "anchors": ["src/btrfs/definitions.rs:STRUCTS", "src/lang/eval/eval.rs:eval_function"]}
{"id": "C58", "title": "Type casts read the bytes at the given position", "statement": "A cast at a byte position succeeds only by decoding the bytes of the image starting exactly at that position; negative positions and positions beyond the end are errors.", "quantifier": "every image, position and known struct", "why_tests_cant": "All images and positions.", "anchors": ["src/lang/eval/eval.rs:eval_unary_expr", "src/btrfs/fs.rs:get_bytes"]}
{"id": "C59", "title": "Type casts of structs with trailing data can succeed", "statement": "Casting a position holding a valid struct with trailing names or elements decodes it including the trailing part.", "quantifier": "every image and position", "why_tests_cant": "All images.", "anchors": ["src/lang/eval/eval.rs:eval_unary_expr"]}
{"id": "C60", "title": "search() returns all matching items, once, in key order", "statement": "Against a kernel that honours the search ioctl contract, however it splits the matching items over calls, search returns exactly the matching items in key order and terminates.", "quantifier": "every set of items, every split over ioctl calls, every key range", "why_tests_cant": "All schedules of partial results.", "anchors": ["src/btrfs/fs.rs:search"]}
{"id": "C61", "title": "search() never returns duplicates", "statement": "For arbitrary kernel replies, if search succeeds all returned headers are distinct.", "quantifier": "every sequence of kernel replies", "why_tests_cant": "All replies.", "anchors": ["src/btrfs/fs.rs:search"]}
{"id": "C62", "title": "search() never reads outside the result buffer", "statement": "For arbitrary reply contents and item counts, each returned header and payload lies within the buffer and each payload has the length its header states; otherwise search fails.", "quantifier": "every buffer content and item count", "why_tests_cant": "All buffers.", "anchors": ["src/btrfs/fs.rs:search"]}
{"id": "C63", "title": "Only btrfs images are accepted", "statement": "An image file is accepted exactly when the btrfs magic is at one of the three superblock locations; a directory exactly when its filesystem type is btrfs.", "quantifier": "every image and path", "why_tests_cant": "All images.", "anchors": ["src/btrfs/fs.rs:Fs::new", "src/btrfs/fs.rs:has_superblock_magic"]}
{"id": "C64", "title": "A failed filesystem statement keeps the previous filesystem", "statement": "If `filesystem` fails, the previously selected filesystem stays selected and no variable changes.", "quantifier": "every path and state", "why_tests_cant": "All states.", "anchors": ["src/lang/eval/eval.rs:eval_builtin"]}
{"id": "C65", "title": "The REPL survives errors and ends only on quit or end of input", "statement": "In every session, an erroneous line never ends the session; the session ends exactly at the first quit or end-of-file, with the effects of all earlier lines.", "quantifier": "every sequence of REPL events", "why_tests_cant": "All event sequences.", "anchors": ["src/main.rs:repl"]}
{"id": "C66", "title": "Script exit status reflects success", "statement": "A script run reports success exactly when evaluation finished or quit, and failure exactly when parsing, analysis or evaluation reported an error.", "quantifier": "every script", "why_tests_cant": "All scripts.", "anchors": ["src/main.rs:script"]}
{"id": "C67", "title": "Evaluation is deterministic and independent of the step bound", "statement": "A program that terminates has one result: the number of steps allowed does not matter once sufficient.", "quantifier": "every program and state", "why_tests_cant": "All programs.", "anchors": ["src/lang/eval/eval.rs:Eval"]}
{"id": "C68", "title": "Builtin names and constants are available and correct", "statement": "Every documented constant and function is defined at start-up with its value, in both the analyzer and the evaluator.", "quantifier": "every listed constant", "why_tests_cant": "Finite table, needed by all other properties.", "anchors": ["src/lang/variables.rs:new", "src/btrfs/definitions.rs:CONSTANTS", "src/lang/functions.rs:FUNCTIONS"]}
{"id": "C70", "title": "A release build never panics", "statement": "In a build without overflow checks, no line of any session and no script makes the interpreter panic: every input ends in a result, an error message, or an evaluation that does not return.", "quantifier": "every session, every script, every host filesystem behaviour", "why_tests_cant": "All inputs, histories and kernel replies.", "anchors": ["src/main.rs:repl", "src/lang/runtime.rs:Runtime::eval", "src/lang/eval/eval.rs:Eval"]}
{"id": "C71", "title": "Overflow checks only add panics", "statement": "A build with overflow checks (debug) behaves exactly like one without, on every session, unless it panics.", "quantifier": "every session and script", "why_tests_cant": "All inputs and histories.", "anchors": ["src/lang/eval/eval.rs:eval_unary_expr", "src/lang/eval/value.rs:Struct::from_bytes"]}
{"id": "C69", "title": "filesystem opens the path it is given", "statement": "`filesystem e` opens the path that the string value of e spells.", "quantifier": "every path", "why_tests_cant": "All byte strings.", "anchors": ["src/lang/eval/eval.rs:eval_builtin", "src/lang/eval/value.rs:as_string"]}
{"id": "C72", "title": "Search result headers are read at aligned addresses", "statement": "Every header of a search result is read at a position of the buffer at which a header may be referenced (a multiple of its alignment, 8).", "quantifier": "every kernel reply", "why_tests_cant": "All payload lengths; misaligned references are undefined behaviour and need not fail in a test.", "anchors": ["src/btrfs/fs.rs:search"]}
{"id": "C73", "title": "Accepted text is the program in writing", "statement": "If an input is accepted as a program, the input consists of the tokens of that program, complete and in order (each literal in one of its spellings), with only blanks around them; every expression tree respects operator precedence and associativity. Nothing of the input is skipped, reordered or invented. Conversely, every such text is accepted and read as that program, even with no blanks at all, except that a blank must follow the variable of a for, and that a statement that begins with an expression must not begin with help, quit, break or continue or with print and something that can be printed; so no text has two readings, and all other texts are rejected.", "quantifier": "every input text and every program", "why_tests_cant": "All accepted texts; a test only shows particular inputs parse as intended.", "anchors": ["src/lang/parse.rs:parse", "src/lang/parse.rs:stmts", "src/lang/parse.rs:expr"]}
{"id": "C74", "title": "Accepted programs can be reprinted", "statement": "Every accepted program has a canonical one-line text, with every string literal in its shortest spelling, that is accepted and yields the same program; the expressions that `print` can be given are exactly the trees that respect the precedence ladder.", "quantifier": "every accepted program; every expression tree", "why_tests_cant": "All programs and all expression trees.", "anchors": ["src/lang/parse.rs:parse", "src/lang/ast.rs"]}
{"id": "C75", "title": "The bundled example script shows the first three results", "statement": "Run as a script with a btrfs filesystem mounted at /mnt/btrfs, scripts/example.btrd searches the root tree from the device tree's root item on, prints the first three decoded results in order and succeeds; if the search or decoding fails, or there is no filesystem, it prints nothing and fails with that error.", "quantifier": "every filesystem content, every honest kernel, every way the kernel splits its replies", "why_tests_cant": "The outcome depends on arbitrary tree contents and kernel behaviour.", "anchors": ["scripts/example.btrd", "src/main.rs:main", "src/lang/runtime.rs", "src/lang/eval/eval.rs:eval"]}
{"id": "C76", "title": "The bundled block group report is right", "statement": "Run as a script with a btrfs filesystem mounted at /mnt/btrfs, scripts/block_group_dist.btrd succeeds and prints two histograms: for every data block group of the extent tree the percentage in use, and the lengths of the gaps in front of the extents in each of them; whatever other items the tree holds and however the kernel splits its replies.", "quantifier": "every extent tree whose known items decode and whose data block groups are non-empty and end within the 64-bit address space; every honest kernel", "why_tests_cant": "Ranges over all filesystem contents and kernel batch sizes.", "anchors": ["scripts/block_group_dist.btrd", "src/lang/eval/eval.rs:eval", "src/btrfs/fs.rs:search", "src/lang/eval/value.rs:as_hist"]}
{"id": "C77", "title": "typeof() names the type and str() gives the text", "statement": "typeof(e) is a string that names the type of e, so comparing it decides type equality; str(e) is e itself for a string and otherwise the displayed text; both accept exactly one argument of any type; str is idempotent, distinguishes integers, and print str(e) prints what print e prints when the text needs no escapes.", "quantifier": "every expression, state and value", "why_tests_cant": "Ranges over all values, nested to any depth.", "anchors": ["src/lang/eval/eval.rs:eval_function", "src/lang/eval/value.rs:type_str", "src/lang/eval/value.rs:Display"]}
{"id": "C78", "title": "The language means what its rules say", "statement": "There is a set of rules, of the kind a language manual would give, for the value of every form of expression and the effect of every statement (without any step bound): an expression yields a value exactly if the rules give it, a program that ends does so with the effects and the kind of end (done, quit, failure, break, continue) the rules give, programs that the rules run to an end other than failure do reach it, and the rules are deterministic. A script succeeds exactly if it parses, the static rules accept it and the rules run it to its end or to quit.", "quantifier": "every program, expression, state, host and step bound; every script text", "why_tests_cant": "Ranges over all programs and all executions, of any length; says also that nothing else happens.", "anchors": ["src/lang/eval/eval.rs:eval_expr", "src/lang/eval/eval.rs:eval_statement", "src/lang/eval/eval.rs:eval_assign", "src/lang/eval/eval.rs:modify_lhs", "src/lang/eval/eval.rs:eval_function", "src/lang/variables.rs"]}
{"id": "C79", "title": "What can run forever", "statement": "A program never comes to an end exactly if, by the rules of the language, it gets to a while loop with no end of complete iterations, to a search on a mounted filesystem whose kernel keeps answering with items for ever, or to printing a histogram with a value above 2^125. Every other program ends, with one effect and result. If the kernel keeps its promise about tree searches, call by call, even while the filesystem is written to, searches always end, so a script or REPL line without while loops that prints no such histogram always ends.", "quantifier": "every program, state, host, kernel, script text and session history", "why_tests_cant": "Non-termination cannot be observed by a test, and termination is claimed for all programs.", "anchors": ["src/lang/eval/eval.rs:eval_statement", "src/btrfs/fs.rs:search", "src/lang/eval/value.rs:as_hist", "src/lang/eval/value.rs:previous_power_2"]}
{"id": "C80", "title": "Layout and comments do not matter", "statement": "Two script sources that write the same tokens, however they are laid out over lines, indented and commented, are the same program: they parse to the same program or run with the same output and result. The comment after the last token and any comment on its own may be deleted. For a REPL entry the same holds, the final ';' being optional, and an entry of only blanks and comments changes nothing; an empty script succeeds.", "quantifier": "every program without hash signs in string literals, every layout of its tokens, every session state", "why_tests_cant": "Ranges over all programs and all layouts of each.", "anchors": ["src/input.rs:strip_comments", "src/input.rs:fixup_input", "src/main.rs:script", "src/main.rs:repl", "src/lang/parse.rs:parse"]}
{"id": "C81", "title": "A session runs its entries by the rules of the language", "statement": "In a REPL session every entry is run by the rules of the language on the state that the earlier entries left, checked against exactly the names the earlier entries made known (also those of a refused entry, up to the refused statement); a failed or refused entry keeps the session going. Entries that are constant arithmetic print their value, one per line, as a calculator.", "quantifier": "every sequence of entries, every host and state", "why_tests_cant": "Ranges over all session histories of any length.", "anchors": ["src/main.rs:repl", "src/lang/runtime.rs:eval", "src/lang/semantics.rs:SemanticAnalyzer"]}
{"id": "C82", "title": "Exit status and standard output of the process", "statement": "A script file that cannot be read or is not UTF-8 runs not at all and gives exit status 1. Otherwise the exit status is 0 exactly if the text is a program, the static rules accept it and the rules of the language run it to its end or to quit. A refused program prints nothing. A release build never panics. A session prints the banner, then what its entries print, then 'quit' if it ended at end of input; it ends with exit status 0 exactly if it reaches quit or the end of input and the history can be saved.", "quantifier": "every file content, host, sequence of events of the line editor", "why_tests_cant": "Ranges over all byte contents and all sessions.", "anchors": ["src/main.rs:script", "src/main.rs:repl", "src/main.rs:welcome", "src/main.rs:main"]}
{"id": "C83", "title": "Error messages", "statement": "The message of every refused or failing program is determined and says what the manual's rules say: the first offence against the static checks from left to right (naming the unknown variable or type, the misplaced jump, ...), or the failure at which the program stops (naming the offending values, types, fields, indices, operators), each with its exact text. A refused program runs nothing; at most one message is possible, and only for a program that does not succeed.", "quantifier": "every program, every state reachable in a session, every host", "why_tests_cant": "Ranges over all programs and states; which of several offences is reported depends on evaluation order everywhere.", "anchors": ["src/lang/semantics.rs:analyze", "src/lang/eval/eval.rs", "src/lang/eval/value.rs", "src/btrfs/fs.rs", "src/main.rs:repl"]}
{"id": "C84", "title": "On-disk structs are read where the kernel's header puts their members", "statement": "Every member that the kernel's btrfs header lists for a struct - also in nested structs and anonymous unions, names and data behind the fixed part, the stripes of a chunk, and the on-disk part of a file extent - is shown under its name with the little endian value at the header's byte offset. Fixed-size structs show exactly the header's members in order and decode exactly from the header's size on. This holds for casts into an image at any position and for the items of a search.", "quantifier": "every struct of the tool, every member, all bytes, every cast position below 2^64", "why_tests_cant": "Ranges over all byte contents; a test checks one image and may not notice two equally sized members swapped.", "anchors": ["src/btrfs/definitions.rs:STRUCTS", "src/lang/eval/value.rs:Struct::from_bytes", "src/btrfs/structs.rs"]}
{"id": "C85", "title": "The whole language manual, nothing left open", "statement": "There is a manual (Spec/World and the rules of C78, C81, C83) that says, without reference to the implementation, which filesystem a path opens, how bytes are read as each struct, what a type cast and search() give for given image contents and kernel replies, the diagram of a histogram, the text of a value, and the message of everything that fails; every session and every script of the tool produces exactly the output, variables, filesystem, status and messages the manual says, and conversely (unless the process panics, in a debug build, or needs more steps).", "quantifier": "every session, script, host, kernel behaviour, image, build", "why_tests_cant": "an equivalence over all programs, all image contents and all kernel replies", "anchors": ["src/lang/eval/eval.rs: Eval", "src/lang/eval/value.rs: Struct::from_bytes", "src/btrfs/fs.rs: Fs::new, search", "src/main.rs: repl, script"]}
{"id": "C86", "title": "Standard output, standard error and exit status, in a changing world", "statement": "For every sequence of prompt events, with any change of the operating system's answers and of the filesystem in use between them, and any number of characters standard output takes: what a release build writes to standard output and standard error and how it ends are exactly what the rules of the language, its static checks, its messages and the manual of the world say, and everything they say is seen given enough steps. If the banner cannot be printed the process panics having read nothing; the only other panics are `quit` not fitting at the end of input or a read error; with unlimited standard output a release build never panics. A standard output that takes n characters gets exactly the first n characters of what would have been printed, and if that is everything nothing else differs. A script whose output does not fit does not succeed. Builds with overflow checks do the same or panic (exit 101, panic message).", "quantifier": "all sequences of events, all hosts and filesystem changes at each event, all script files, all limits of standard output, all step bounds", "why_tests_cant": "the claim is over all interleavings of world changes and entries and all points at which standard output may fail", "anchors": ["src/main.rs: repl, script, main, welcome", "src/lang/runtime.rs: Runtime::eval", "src/lang/eval/eval.rs: Eval::eval"]}
{"id": "C87", "title": "What a search skips is named on standard error and nothing is lost in silence", "statement": "Whatever the world does while entries are evaluated: directly after each search that finds items, standard error gets one warning, naming the key, for each found item that is of no kind the tool knows, in order (up to the first item of a known kind that cannot be read, which makes the search fail), and there are no other warnings; a failing search, an entry that does not search, and items of known kinds only give none. When search() returns an array, every item found is in the array with its key or has its warning, never both, and the numbers add up; the operands are evaluated left to right before the one search, which meets the filesystem as it is at that moment. Besides the warnings, standard output, standard error and the exit status are unaffected by them.", "quantifier": "all entries, sessions and scripts, all filesystems and kernel replies, all changes of the world between any two requests, all step bounds", "why_tests_cant": "the claim ranges over all item lists a kernel may return and all moments at which the world may change", "anchors": ["src/lang/eval/eval.rs: eval_function (search), eprintln!", "src/main.rs: repl, script", "src/btrfs/fs.rs: Fs::search, Fs::get_bytes, Fs::new"]}
{"id": "C88", "title": "The language when the world changes while an entry is evaluated", "statement": "Whatever the operating system answers and whenever it changes, also between two requests of one entry: operands are evaluated left to right, only those that are needed (the short cut operators, arguments after one of the wrong kind), the value of an assignment before the indices of its target, from the outside in; each search, each read of an image and each opening of a path happens exactly once, when its operation is performed, and is answered by the world of that moment; everything else about the program does not depend on the moment. So what standard output, standard error (besides the warnings of C87) and the exit status of sessions and scripts of a release build show is exactly what these rules say, and everything they say is seen given enough steps; the rules are deterministic; no accepted program panics in a release build; and in a world that is steady during each entry they are the rules of C86.", "quantifier": "all expressions, programs, sessions and scripts, all live worlds (any host and any filesystem at any moment), all limits of standard output, all step bounds", "why_tests_cant": "the claim ranges over all interleavings of changes of the world with the requests of a running program", "anchors": ["src/lang/eval/eval.rs: Eval::eval_expr, eval_assignment, eval_lhs, eval_function, eval_stmts", "src/btrfs/fs.rs: Fs::search, Fs::get_bytes, Fs::new", "src/main.rs: repl, script"]}
{"id": "C89", "title": "The message about a text that is no program says where reading broke off", "statement": "A command, session entry or script either is a program in writing (C73) or there is exactly one place where its reading breaks off: behind the longest initial part (after removal of comments) that is a program, possibly the empty one. There and only there the error is reported: `Mismatch at N: expect end of input, found: c`, N being the number of characters in front of it and c the character there, which is never blank and begins no complete statement. The text has no effect on variables, filesystem or output; in sessions and scripts this message is what appears on standard error.", "quantifier": "all texts, all states of a session, all scripts", "why_tests_cant": "'the longest initial part that is a program' quantifies over all programs and all their layouts for every text", "anchors": ["src/lang/parse.rs: parse, stmts, space", "src/lang/runtime.rs: Runtime::eval", "src/main.rs: repl, script"]}
{"id": "C90", "title": "The search request reaches the kernel as the kernel's header defines it", "statement": "The system call by which search() asks for items has the request number BTRFS_IOC_TREE_SEARCH_V2 of the kernel's header, and at the offsets of the header's structs the kernel finds in memory the tree, the bounds on object id, type, offset and transaction id as given, no limit on the number of items, the true size of the buffer, and zeros in the unused members. The buffer ends exactly where the allocated memory ends. Against any operating system that serves such requests the replies are understood: a search with an upper bound returns exactly the items asked for (offsets below the largest), one without returns the items of the first reply. No other request is ever made.", "quantifier": "all parameters of search() that the evaluator lets through, all operating systems that serve the request, all contents of the trees, all splits of the items over calls", "why_tests_cant": "the layout in memory and the reply must be right for all 64 bit parameters and all kernels; on a test machine only one kernel and few trees are seen", "anchors": ["src/btrfs/fs.rs: btrfs_tree_search_ioctl, BtrfsIoctlSearchKey, BtrfsIoctlSearchArgs, BtrfsIoctlSearchHeader, MAX_BUF_SIZE, Fs::search"]}
{"id": "C91", "title": "--debug adds an exact trace to standard error and changes nothing else", "statement": "With and without --debug a session or script writes the same standard output, ends with the same exit status, and writes the same other lines in the same order on standard error. The added messages of a session are, for each entry read, what was read and what was given to the parser, then for each answered system call of each search made while it was evaluated the request and the number of items; scripts have only the messages of searches. The messages of a successful search begin with the request itself, differ only in where they begin, and their numbers add up to the number of items returned; on an honest kernel the starting points increase strictly. The text of the messages about an entry determines the entry, and is one line.", "quantifier": "all sessions and scripts, all live worlds, all kernels, all Unicode tables", "why_tests_cant": "compares two complete executions for every session and every behaviour of the operating system; injectivity ranges over all texts", "anchors": ["src/main.rs: main, repl (info!)", "src/btrfs/fs.rs: Fs::search (info!)"]}
{"id": "C92", "title": "What a session reads from a file or a pipe", "statement": "When standard input is a file or a pipe, its bytes are read as entries in exactly one way: any number of lines ending in a backslash and one that does not are one entry, without the last line end (LF or CRLF); a last line need not have one; a line that is not UTF-8 is a read error and is passed over together with the continued lines in front of it; continued lines nothing follows are lost; then comes the end of the file, once. Every entry is a piece of the input. The session ends, and, unless it is kept busy by a program, with exit status 0 whatever its entries did (a script with the same text may fail). If standard input cannot be read at all, each attempt prints `quit`, without end.", "quantifier": "all byte strings on standard input, all worlds during the session", "why_tests_cant": "ranges over all byte strings, including invalid UTF-8 and all combinations of continued lines and line ends; termination of every session", "anchors": ["src/main.rs: repl", "src/input.rs: InputHelper::validate"]}
{"id": "C93", "title": "A program can be entered in pieces, a script line by line", "statement": "If a text is a program that runs to its end and a second text is accepted after it, evaluating both as one text makes the same requests at the same moments and ends in the same state with the same result as evaluating one after the other; if the first ends with quit or an error and both together are accepted, the second has no effect. A script whose lines are programs of their own without bare expressions can be given to a session on standard input instead: if it succeeds, the session prints its banner, the same output and `quit` (unless the script quit), exits with status 0 and gives no messages except about lines without statements; if it is accepted and fails while running, the session prints the same up to there, with the same message, and goes on. With bare expressions this does not hold.", "quantifier": "all pairs of program texts, all states, all live worlds; all scripts made of such lines", "why_tests_cant": "compares two executions for all programs, all ways to cut them at statement boundaries and all behaviours of the operating system", "anchors": ["src/lang/runtime.rs: Runtime::eval", "src/main.rs: repl, script", "src/lang/semantics.rs: SemanticAnalyzer::analyze", "src/lang/eval/eval.rs: Eval::eval, eval_statement"]}
{"id": "C94", "title": "The names of variables do not matter", "statement": "Giving the variables of a program other names (different ones for different variables, built-in names kept, no variable given a built-in name) changes nothing that can be observed: in whatever changing world, a script or a whole session makes the same requests to the operating system at the same moments, prints the same, gives the same warnings, ends with the same exit status and the same lines on standard error, except that an 'Unknown variable' message has the other name. Names after '.', struct names in casts, and text in strings are no variables. In particular what an entry does depends only on the variables that it mentions, never on others that happen to exist.", "quantifier": "for every program, every renaming that distinguishes the mentioned names, every pair of texts that spell the two programs, every pair of interpreter states related by the renaming, every session (mixing entries, unreadable entries, interrupts, end of input), every changing world and every moment", "why_tests_cant": "A test fixes one program and one pair of names; that no part of parser, analyzer or evaluator treats one user name differently from another, in any program and any state of the world, is a statement about all of them.", "anchors": ["src/lang/variables.rs: Variables", "src/lang/semantics.rs: SemanticAnalyzer", "src/lang/eval/eval.rs: Eval", "src/lang/runtime.rs: Runtime::eval", "src/main.rs: repl, script"]}
{"id": "C95", "title": "Requests go to the filesystem last opened", "statement": "Every search and every read that a program makes is of the filesystem in use: the one that `filesystem` opened last, or, before that, the one of the working directory when the tool started, if that is a btrfs filesystem. It is asked as it is at the moment of the request. A path that cannot be opened leaves the old filesystem in use; a failing or rejected entry does not change it either; as long as none is in use nothing is searched or read at all. It stays in use from one entry to the next.", "quantifier": "for every entry in every interpreter state, every session with its events, every script, every world changing at any moment, at every point of the sequence of requests", "why_tests_cant": "The order of opens, failed opens, searches and reads is that of an arbitrary program with loops and errors, in a world that answers arbitrarily.", "anchors": ["src/lang/eval/eval.rs: Eval::eval_builtin, eval_function, eval_unary_expr, Eval::new", "src/btrfs/fs.rs: Fs::new, Fs::search, Fs::get_bytes"]}
{"id": "C96", "title": "Descriptors and mappings are used and released in order", "statement": "Whatever is entered, and whatever the world answers, the tool asks, maps and closes only descriptors that are open and of the right kind, reads only within mappings that exist, and never closes or unmaps twice. While a session runs, exactly one directory (a mounted filesystem in use), one mapping of the whole image (an unmounted one), or nothing (none in use) is open between entries; a failed `filesystem` leaves nothing behind, a successful one releases the previous filesystem after the new one is there; there are never more than two descriptors and two mappings. A mounted filesystem in use is held open since it was opened, so it cannot be unmounted. When the process has ended, also by a panic, everything is released.", "quantifier": "for every session with its events, every script, every world changing at any moment (filesystems in use keeping their kind), every way the operating system numbers descriptors, at every point of the sequence of calls", "why_tests_cant": "A leak or a use after close may need a particular sequence of failed and successful openings, searches and errors over a long session.", "anchors": ["src/btrfs/fs.rs: Fs::new, Fs::new_mounted, Fs::new_unmounted, Fs::search, Fs::get_bytes, Fs (doc comment)", "src/lang/eval/eval.rs: Eval::new, Eval::eval_builtin", "src/main.rs: repl, script"]}
{"id": "C97", "title": "What a process has done so far does not depend on what comes later, and stays when it is killed", "statement": "The acts of a process - texts on standard output, lines on standard error, requests to the operating system and answers - come in one order. Killed at any moment, even in the middle of a write, it leaves a first part of the output it would have written, of the error lines and of the answers. What is done before the n-th request of an entry or script depends only on the answers to the requests before it; what was done before an entry does not depend on later entries, and nothing is done after the end. A run that has not finished has done a first part of what it does when it goes on, so what is seen of an endless program is determined. A build with overflow checks does what one without does, up to the panic. Statements are executed one after the other, and `print` writes only after everything its expression asks for, in one piece.", "quantifier": "for every session and script, every moment of killing, every world answering at every moment, every two worlds that agree on the first n requests, every number of steps", "why_tests_cant": "A test sees finished runs in one world; that nothing is buffered, reordered or influenced by later answers must hold for every prefix of every run, including endless ones.", "anchors": ["src/lang/eval/eval.rs: Eval::eval_statement, Eval::eval_builtin, Eval::eval_while, Eval::eval_for, Eval::print_help", "src/lang/runtime.rs: Runtime::eval", "src/main.rs: main, repl, script, welcome"]}
{"id": "C98", "title": "A standard error that cannot be written to", "statement": "If lines cannot be written to standard error (a pipe nobody reads, a full disk), a session or script does exactly what it would do otherwise up to the first warning, error message or hint that cannot be written; there it panics (exit status 101) and does nothing else. The log of a read error, the message of a panic and the last message of a process that fails may get lost without consequences. Standard output, the answers and the entries taken are a first part of those of the undisturbed run, and all of them, with the same exit status, if there is no panic. A standard error that takes k lines gets exactly the first k lines. A script that succeeds has written all its warnings; one that fails never ends with status 0; with a standard error that takes nothing a script succeeds exactly if it would have succeeded without a warning.", "quantifier": "all programs, sessions, files, worlds changing at any moment, amounts of room on standard output, and all patterns of attempts to write to standard error that succeed or fail", "why_tests_cant": "the moment at which standard error breaks is arbitrary, as are programs and worlds; tests run with a working standard error", "anchors": ["src/main.rs: repl, script, main", "src/lang/eval/eval.rs: eval_function_call (warning, 399-402)"]}
{"id": "C99", "title": "Every struct a program ever holds has exactly the fields its name promises", "statement": "Whatever is entered in a session and whatever the world answers: every struct inside every variable and every value of an expression, at any depth, is one of the structs of the kernel's header (or the search key, or one of the two anonymous parts) and has exactly the fields it has there, in that order; only extents, file extents and inline references have fields that depend on the bytes. So `.f` behind an expression that gives a struct succeeds exactly if `f` is a field of it in the header. Programs cannot make, extend or shrink structs: an assignment to a field or element, successful or not, leaves every variable the same kind of thing, with the same name, key and fields, or the same length. Each of these forms is read of some bytes.", "quantifier": "for every session, every sequence of events and answers, every expression, every depth, every assignment", "why_tests_cant": "A test reads a few structs; that no sequence of casts, searches, assignments and answers makes a struct of another form is an invariant of all sessions.", "anchors": ["src/lang/eval/eval.rs: Eval::eval_statement, Eval::eval_expr", "src/lang/eval/value.rs: Struct::from_bytes", "src/btrfs/definitions.rs: STRUCTS"]}
{"id": "C100", "title": "Parsing never takes exponential time", "statement": "The parser backtracks without remembering anything and calls itself for every bracket, argument and block. Nevertheless there is no text, valid or not, that makes it explode: the number of times a character of the text is looked at is at most a constant times the cube of the length of the text, and for an expression a constant times the square, however deep brackets and blocks are nested and wherever the text breaks off.", "quantifier": "for every text of any length, accepted or rejected", "why_tests_cant": "A test times a few texts; which of all the ways to nest brackets, operators and unfinished blocks is the worst cannot be found by trying.", "anchors": ["src/lang/parse.rs: parse, stmts, stmt, block_stmt, expr, or_expr, postfix_expr, primary_expr"]}
{"id": "C101", "title": "Expressions can be exchanged for others that mean the same", "statement": "If two expressions mean the same (accepted alike, and in every state a session can have, in every world, the same value or error, the same requests, warnings and time), one may be replaced by the other anywhere and any number of times in a program: entry, script and session then have the same output, standard error, exit status, final state and requests. If the second only does what the first does where the first gives a value, this still holds for programs that end without an error. Such pairs are: (e) and e; a != b and !(a == b); each comparison and the negation of its opposite; both groupings of && and of ||; ~a and -1 - a. And one way: De Morgan's laws; a*1, a/1, a-0, a>>0, a<<0, a|0, a^0, ~~a, -(-a) to a; a && true, true && a, a || false, false || a to a; false && a to false, true || a to true; a*2 to a<<1; 0-a to -a. But a + 0 is not a (arrays append) and !!a is not a (! takes integers).", "quantifier": "all programs and all places in them, all pairs of expressions that mean the same (or of which one serves for the other), all states with the values sessions have, all changing worlds, all sessions and scripts", "why_tests_cant": "It ranges over all programs, all contexts inside them and all worlds; a test compares two programs in one world.", "anchors": ["src/lang/eval/eval.rs: eval_expr, eval_binop_expr, eval_unary_expr, eval_statement", "src/lang/semantics.rs: analyze", "src/main.rs: repl, script"]}
{"id": "C102", "title": "The requests of a search and their replies", "statement": "A search without an upper bound makes exactly one request, whatever the kernel answers. With an upper bound, against a kernel that keeps its promise, each request starts right behind the last item of the reply before it, so the requests go strictly forward; every reply but the last has items; one after the other the replies are the first so many of the items asked for, and all of them, with an empty last reply, when the search succeeds. So there is at most one request more than there are items asked for, and two (or one, if nothing is found) if the kernel always replies with all it is asked for. A reply that claims more items than the buffer has room for is never taken for an answer, whichever request it answers; in particular EOVERFLOW, which the tool treats like success, and which leaves nr_items as it was, makes the search fail instead of passing the item over.", "quantifier": "all filesystems, all ways of splitting the items over replies, all search parameters, all contents of the buffer", "why_tests_cant": "The splits into replies are up to the kernel; a test sees one of them, and none with an item larger than the buffer.", "anchors": ["src/btrfs/fs.rs:search", "src/btrfs/fs.rs:BtrfsIoctlSearchArgsV2::new"]}
{"id": "C103", "title": "Searching a filesystem that is written to meanwhile", "statement": "Against a kernel that keeps its promise call by call while the filesystem is written to between the calls, a search with an upper bound that succeeds returns items of which each was in the tree and asked for at the moment of its reply, with keys in strictly increasing order and none twice; a key of which there was an item asked for at every request is returned, so an item that stays is returned exactly once and one that is never there is not returned. A search fails only when the last item it saw has the largest offset there is; writing never makes it report identical payloads, and never makes it go on for ever. A search without an upper bound returns the first so many of the items of one moment. But what is returned need not be what the filesystem held at any one moment. A program sees the decoded items under the same guarantees, and what C79 says about programs on honest systems holds for filesystems that are written to.", "quantifier": "all filesystems, all histories of writes between the calls, all ways of splitting the items over replies, all search parameters", "why_tests_cant": "Concurrent writes and the kernel's splits cannot be enumerated, and non-termination cannot be observed.", "anchors": ["src/btrfs/fs.rs:search", "src/lang/eval/eval.rs:search"]}
{"id": "C104", "title": "Statements can be exchanged for others that mean the same", "statement": "If two runs of statements mean the same (accepted and rejected alike, with the same error and the same names known afterwards; run from any state in any world with the same requests, warnings, time, output, state and result), then one may be put in the place of the other anywhere in a program, in a script or in a session, and nothing that can be observed changes. For runs without an error it is enough that the second stands in for the first where the first ends without an error; at the end of a block the names known afterwards do not matter. Of this kind are: an if in an if and an if with both conditions; a while loop and an endless loop with a break; an if without else and its negation with an empty first block; an if with the blocks swapped, if the first block assigns nothing new; if true without its else; if false and while false; what follows break, continue or quit; x = x at the end of a block; and the first round of a loop written out, if the body has no break or continue of its own. Not of this kind, and so proved: swapping blocks in general, flattening if true, leaving out x = x elsewhere, writing out a round with a break.", "quantifier": "all programs, all runs of statements related in this way at any depth and number of places, all interpreters, sessions and worlds that change meanwhile", "why_tests_cant": "It is a statement about all programs and all places in them, and about all worlds they run in.", "anchors": ["src/lang/eval/eval.rs:eval_statement", "src/lang/eval/eval.rs:eval_while", "src/lang/semantics.rs:analyze_stmt", "src/lang/variables.rs:push_scope"]}
{"id": "C105", "title": "How deep parsing nests is settled by the brackets in the text", "statement": "Parsing never has more calls of the rule for expressions inside each other than there are round and square brackets opened in the text, and one; and never more calls of the rule for statements than there are blocks opened, and one. So a text without brackets needs one of each however long it is, and what would happen beyond that depth (an exhausted stack) cannot matter. In turn the room needed is always more than the tree nests: what is read with room for n and m calls nests less than n deep in brackets and less than m deep in blocks, so no tree nests deeper than its text has brackets. The bounds are met: n brackets around a number, and n loops inside each other, are programs that are read with room for n + 1 calls and not with room for n. So no fixed room is enough for all programs.", "quantifier": "all texts, all limits on the two depths, and all behaviours of a call at the limit", "why_tests_cant": "a test parses texts of a few depths; that length alone never makes the parser nest deeper is a statement about all texts", "anchors": ["src/lang/parse.rs: expr, stmts, primary_expr, postfix_expr, block_stmt, parse"]}
{"id": "C106", "title": "What was assigned to a variable may be read instead of the variable", "statement": "After `x = c;`, where c is made of literals, variables other than x, fields, indices and operators (no calls, no casts), c may be read instead of x, at any place in any expression in the statements that follow, at any depth in blocks and loops, as long as none of them assigns to x or to a variable in c, to parts of them, or loops with them: the checks accept the same programs with the same errors, and in any world, changing meanwhile, the requests, warnings, output, state and result are the same, errors included. (Read backwards: what is computed again may be kept in a variable.) And an assignment of such a c that the next statement overwrites may be left out, if that does not read the variable: a program that ends without an error does the same. The conditions are needed: with x assigned meanwhile, a variable of c assigned meanwhile, c reading x itself, or the overwriting statement reading x, there are programs that end differently. Together with C104 this holds anywhere in scripts and sessions.", "quantifier": "all variables, all such expressions, all statements that follow and all choices of places in them, all states, all worlds changing over time, all bounds on loops", "why_tests_cant": "a test replaces a few variables in a few programs; that nothing in the language can tell, at any depth and in any run of any loop, is a statement about all programs and worlds", "anchors": ["src/lang/eval/eval.rs: eval_expr, eval_lhs_assign, eval_statement, eval_if, eval_while, eval_for", "src/lang/eval/variables.rs: insert, get, get_mut, push_scope, pop_scope", "src/lang/semantics.rs: analyze_stmt, analyze_expr"]}
{"id": "C107", "title": "What a program does not mention it does not notice", "statement": "A program that does not mention a variable x (neither reads it, nor assigns to it or a part of it, nor loops with it) can not tell whether and where x is bound, and to what: the checks give the same verdict with the same error, and from two states that are the same but for x, in any world changing meanwhile, the run makes the same requests at the same moments, gives the same warnings and has the same result, errors included, and the two states it ends in (output, filesystem, every other variable in every scope) are the same but for x; x itself is left as it is. Hence an assignment `x = c;` may be made after such statements instead of before them (c without calls and casts, no variable of c assigned meanwhile, no jump out of the block, no `quit;`): a program that ends without an error does the same in either order. An assignment may likewise be left out if a later one in the same block overwrites it and nothing between mentions the variable. And an assignment between the statements of a script to a variable that is not mentioned after it may be left out: if c is a literal, output, standard error, exit status and requests are the same in any case; for any c without calls and casts they are if the script succeeds. In a session likewise an entry that sets a variable to a literal may be left out if no later entry mentions the variable. The conditions are needed: for an assignment that may fail, a variable of c assigned meanwhile, or a `quit;` passed over, there are programs that end differently.", "quantifier": "all variables, all programs not mentioning them, all pairs of states and of sets of known names that differ in the variable only, all worlds changing over time, all bounds on loops, all scripts", "why_tests_cant": "that nothing a program does depends on a variable it does not mention is a statement about pairs of runs, from all states and in all worlds", "anchors": ["src/lang/eval/eval.rs: eval_expr, eval_lhs_assign, eval_statement, eval_if, eval_while, eval_for", "src/lang/eval/variables.rs: insert, get, get_mut, push_scope, pop_scope", "src/lang/semantics.rs: analyze_stmt, analyze_expr", "src/main.rs: main"]}
{"id": "C108", "title": "A loop whose body cannot change its condition ends at once or never", "statement": "Take a `while` loop whose condition is made of literals, variables, fields, indices and operators (no calls, no casts), and whose body assigns to no variable in the condition, nor to a part of one, nor loops with one, and has no `break` or `continue` of its own. If the condition holds at the start, the loop does not come to an end: in any world, changing meanwhile, and for any bound on the iterations, only an error in the body (or the bound itself) or a `quit;` in the body stops it; a `quit;` only if there is one. So if the statement after such a loop is reached, the condition was false from the start, and nothing was asked, printed or changed and no time has passed. And if each run of the body ends well, the loop goes on beyond every bound.", "quantifier": "all such conditions and bodies, all states, all worlds changing over time, all bounds", "why_tests_cant": "that a loop never ends can not be observed, and the claim is about all bodies and states", "anchors": ["src/lang/eval/eval.rs: eval_while, eval_expr, eval_statement", "src/lang/eval/variables.rs: insert, get, push_scope, pop_scope"]}
