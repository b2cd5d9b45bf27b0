{
 "C01": [
  "proved",
  "Every text, every line terminator; unique line decomposition."
 ],
 "C02": [
  "partial",
  "False of the code: an escaped quote before '#' (and a line break inside a literal) is altered; negations proved with witnesses. Proved for every literal without escaped quotes and line breaks; and C02_exact says for every literal at every place whether it survives: if and only if its body has no line break and every '#' in it comes after an even number of quotes."
 ],
 "C03": [
  "proved",
  "Every entry; continuation removal characterised by splitting at every backslash-newline."
 ],
 "C04": [
  "partial",
  "False of the code: stripping comments first replaces the newline, so the continuation backslash always survives (proved for every two-line entry). The removal step alone is right. C04_exact: the joined lines are read like the unjoined ones if and only if every continued line has a comment before its backslash."
 ],
 "C13": [
  "proved",
  "Any sequence of pushes, pops and assignments against a per-variable stack of optional bindings; totality too."
 ],
 "C14": [
  "proved",
  "Every statement, state and outcome, including failures and quit."
 ],
 "C15": [
  "proved",
  "Every program and every session."
 ],
 "C22": [
  "partial",
  "Binary operators proved exact-or-error for all operands. False of the code for unary minus of the least integer: panic in debug builds, wraps in release; negation proved with a reachable witness, C22_neg_partial covers every other operand. C22_exact: exact or an error for all operands of all operators, except unary minus of the least integer."
 ],
 "C24": [
  "proved",
  "Includes uniqueness of quotient and remainder."
 ],
 "C25": [
  "proved",
  "Bit i of the result for every i < 128; the bits determine the value."
 ],
 "C26": [
  "partial",
  "`>>` and amounts proved. False of the code for `<<`: bits shifted out are lost (1 << 127 is negative); negation proved, C26_shl_partial gives the exact result whenever it fits and the wrapped one otherwise. C26_exact: a left shift is exact or refused if and only if the amount is refused or the product fits."
 ],
 "C27": [
  "proved",
  "Every expression."
 ],
 "C28": [
  "proved",
  "Structural induction over values of any depth."
 ],
 "C29": [
  "proved",
  "All operators, type errors included."
 ],
 "C30": [
  "proved",
  "Any subexpression at any depth (Wrapped congruence)."
 ],
 "C31": [
  "proved",
  "Success and failure."
 ],
 "C32": [
  "proved",
  "Any path of fields and indexes; read back, frame of components and variables, failure."
 ],
 "C33": [
  "proved",
  "Any later program that assigns only (parts of) x."
 ],
 "C34": [
  "proved",
  "Big-step rules, deterministic and complete, against the model's loop."
 ],
 "C35": [
  "proved",
  "Rules over the list of elements; the snapshot theorem for the self-appending loop."
 ],
 "C36": [
  "proved",
  "All four outcomes of the condition."
 ],
 "C37": [
  "proved",
  "Sequence, if, while, for and whole sessions."
 ],
 "C38": [
  "proved",
  "Every program, state and session."
 ],
 "C39": [
  "proved",
  "Both modes."
 ],
 "C40": [
  "proved",
  "Every split of a statement list."
 ],
 "C50": [
  "proved",
  ""
 ],
 "C51": [
  "proved",
  ""
 ],
 "C52": [
  "proved",
  ""
 ],
 "C53": [
  "proved",
  "encodeFields gives the bytes back for every fixed-size struct (unions included) and every struct with trailing parts; for the two dynamic structs injectivity is proved instead of an encoder."
 ],
 "C54": [
  "proved",
  ""
 ],
 "C55": [
  "proved",
  ""
 ],
 "C56": [
  "partial",
  "Holds for every struct of the table but btrfs_extent_item (C56_accessible_partial). False for extent items with several inline references: the second one is not reachable by name (C56_second_inline_ref_inaccessible); what holds there is C56_extent_item_partial. C56_exact: every field is reachable if and only if the struct is no extent item or its inline references are all the same."
 ],
 "C57": [
  "partial",
  "Holds for every key except DIR_LOG_ITEM keys (type 60, matched by no struct) and balance items (objectid 4 in the table, -4 on disk): C57_dir_log_item_unknown, C57_balance_item_unknown are the counterexamples. C57_exact: the dispatch is the documented one if and only if the item is no directory log item and its key is neither the balance key nor the one mistaken for it."
 ],
 "C58": [
  "partial",
  "Holds for positions below 2^64. False above: positions are taken modulo 2^64 (C58_position_wraps), and the last positions below 2^64 panic in a debug build (C58_last_positions_panic). C58_exact: in a release build a cast does what its position says if and only if the position is below 2^64 or reading at the position modulo 2^64 gives no value."
 ],
 "C59": [
  "partial",
  "False: a cast passes only the fixed part of the struct, so trailing strings are never decoded (C59_trailing_always_empty, C59_cast_of_name_fails). C59_cast_partial is what holds. C59_exact: for all structs but the two extent items, the cast gives the struct if it ends within its fixed part and fails otherwise."
 ],
 "C41": [
  "proved",
  "for arbitrary byte strings, both escaping modes, up to the text written by print"
 ],
 "C42": [
  "proved",
  "totality for all values; exact layout and ASCII-only output for every value of every session"
 ],
 "C43": [
  "partial",
  "false of the code: a maximum that is a power of two (or 0, or a negative power) is not counted; proved exactly which values are counted, that all are when the maximum is no boundary, and the printed lines C43_exact: all values are counted if and only if the largest is no boundary."
 ],
 "C44": [
  "partial",
  "false of the code: rounding does not terminate from 2^126 on; proved exact and terminating for all 128-bit integers below 2^126, and exact whenever it returns C44_exact: rounding ends if and only if the value is below 2^126."
 ],
 "C45": [
  "proved",
  "bars at most 50 wide; no panic for any list of 128-bit integers (builds with overflow checks: values at least -2^126)"
 ],
 "C23": [
  "proved",
  "for every session: variables, expression results, literals read by the parser"
 ],
 "C16": [
  "proved",
  "Every accepted program from any state, and every line of every session."
 ],
 "C17": [
  "proved",
  "Release builds: no accepted program panics at all. Debug builds: an accepted cast panics only by the overflow check on position plus size (C58 covers that defect), never by a failed lookup."
 ],
 "C18": [
  "proved",
  "Accepted or rejected, any program; plus an exact characterisation of what is accepted, and that accepted lines stay accepted."
 ],
 "C19": [
  "partial",
  "False of the code: five ways to read an unassigned variable in accepted input are proved with witnesses, and proved to be all there are: whenever an accepted entry of a session fails with \"Unknown variable x\", it reads x in one of three lax places, or an earlier entry that assigns x was answered with an error. Also proved: definition-before-use programs never fail so; accepted input that avoids the three gaps never does when analyzer and evaluator agree, which holds while lines run to their end."
 ],
 "C20": [
  "proved",
  "Every session, and acceptance of every later line that reads only existing variables."
 ],
 "C21": [
  "proved",
  "Every line and state."
 ],
 "C65": [
  "proved",
  "Every event sequence. Read errors other than interrupt and end of file do not end the loop (C65_other_events)."
 ],
 "C66": [
  "proved",
  "Every script: success iff it parses, is accepted, and evaluation ends or quits."
 ],
 "C70": [
  "proved",
  "Every session and script of a build without overflow checks."
 ],
 "C67": [
  "proved",
  "Expressions, programs, scripts and sessions: once a run finishes within a loop bound, every larger bound gives the same effects and result."
 ],
 "C71": [
  "proved",
  "Every session, program and expression."
 ],
 "C46": [
  "proved",
  "Arrays shorter than the 64-bit address space; append, len, indexing characterised by iff at the level of expressions."
 ],
 "C47": [
  "proved",
  "Any callee expression whose value is key, any arguments."
 ],
 "C48": [
  "proved",
  "Every successful search, any later state and expression that yields the value; structs without key are an error; copies keep keys."
 ],
 "C49": [
  "proved",
  "All argument values: success implies the kernel saw exactly these numbers, out of range is an error, in range asks the kernel."
 ],
 "C60": [
  "partial",
  "False of the code: a request without upper bound (what key() makes) is never continued, and a bounded search fails if the last item has the largest offset; both negations proved. Proved complete, sound, ordered and terminating for bounded requests without largest-offset items, for every honest kernel and every split. Exactly: C60_exact says a bounded search is complete on every honest kernel if and only if no item asked for has the largest offset; C60_bounded_all_or_error that it never gives less in silence."
 ],
 "C61": [
  "proved",
  "Arbitrary kernel replies; duplicates are reported as errors, not dropped."
 ],
 "C62": [
  "proved",
  "Arbitrary kernel replies; results are exactly the items the buffers hold."
 ],
 "C63": [
  "proved",
  "Every host, path and image."
 ],
 "C64": [
  "proved",
  "Every state and expression; success changes only the selected filesystem."
 ],
 "C68": [
  "partial",
  "False of the code for two of 148 kernel constants (BTRFS_BALANCE_OBJECTID has the wrong value, BTRFS_BLOCK_FLAG_FULL_BACKREF the wrong name); proved for all others and all functions. C68_exact: a header constant is known with its value if and only if it is not one of the two named ones."
 ],
 "C69": [
  "partial",
  "False of the code: any path with a byte that printing escapes is looked up under its escaped spelling (proved for every such path). Proved for plain paths. Exactly: C69_exact says which paths are opened as written."
 ],
 "C72": [
  "partial",
  "False of the code: honest replies put headers at unaligned positions. Proved for payloads of multiples of eight bytes. Exactly: C72_exact says which replies have every header aligned."
 ],
 "C05": [
  "proved",
  "every tree that respects the ladder (Spec/Grammar) is read back exactly, and no two such trees share a text"
 ],
 "C06": [
  "proved",
  "every program in every way it can be written (optional else, extra semicolons, compound assignment, any spacing) is read back exactly; statements that begin with a word such as breakfast are excluded, see C11"
 ],
 "C07": [
  "proved",
  "any blanks at any token boundary, in expressions and in whole programs; at least one blank between two words"
 ],
 "C08": [
  "proved",
  "value if below 2^127, otherwise the program is rejected"
 ],
 "C09": [
  "proved",
  "every text in every spelling: raw characters, escapes, \\u units and surrogate pairs"
 ],
 "C10": [
  "proved",
  "every repeated rule consumes; the model's bounds are irrelevant: its repetition is pom's unbounded loop and its recursive rules are the unique solution of the grammar's equations"
 ],
 "C11": [
  "partial",
  "false as stated: identifiers that begin with true, false, print, help, quit, break or continue are rejected or misread (C11_false_assign, C11_false_reference, C11_misread_*); proved for all other identifiers, and exactly: C11_exact_reference and C11_exact_assign say which identifiers can be read and assigned to, C11_exact_loop and C11_exact_field that every identifier can be a loop variable and a field name."
 ],
 "C12": [
  "proved",
  "l += e is read as l = l + (e) and runs alike in every session"
 ],
 "C73": [
  "proved",
  "Exact for all texts and all programs (C73_exact): a text is read as a program if and only if it is its tokens with any blanks or none around them, a blank being needed only after the variable of a for, and no statement that begins with an expression is one that print, help, quit, break or continue claims (Free, in Spec/Accept); all other texts are rejected (C73_rejected); so keywords may be glued to what follows (C73_tight) and no text has two readings (C73_unambiguous); the spellings of literals are characterised exactly (C09_exact)"
 ],
 "C74": [
  "proved",
  "For every accepted program, without condition (C74_reprint_any); a program is in the language exactly if it has such a text (C74_writable_iff); C74_expressions says which expression trees print can be given"
 ],
 "C75": [
  "proved",
  "The exact text of scripts/example.btrd is parsed, analyzed and run inside the model (parsing by kernel reduction); the three outcomes are proved for every kernel and, with an honest kernel, in terms of the tree's items. Because key() leaves the search unbounded, what is read is the kernel's first reply (see C60)."
 ],
 "C76": [
  "proved",
  "The exact text of scripts/block_group_dist.btrd; the report is specified from the extent tree's bytes alone (Spec/Scripts). Gaps are those in front of an extent: the script does not count free space after the last extent of a group, and the specification says so."
 ],
 "C77": [
  "proved",
  "Found by mutation testing (b46, b49 survived before)."
 ],
 "C78": [
  "proved",
  "Big-step rules in Spec/Rules; search results, casts, opening filesystems, diagrams and value texts are relations of a World, which other properties describe."
 ],
 "C79": [
  "proved",
  "Exact: a program exceeds every step bound iff by the rules it reaches a statement that never ends (an endless while loop, a search a dishonest kernel answers for ever, a histogram with a value above 2^125); otherwise its result is fixed from some bound on. For honest kernels only the loop and the histogram remain, for programs, REPL lines and scripts."
 ],
 "C80": [
  "proved",
  "For sources whose string literals contain no '#' and no quote followed by one (see C02); layouts keep two word tokens apart."
 ],
 "C81": [
  "proved",
  "Learned names and results of every entry of a session, without step bound."
 ],
 "C82": [
  "proved",
  "main.rs as a process; command line parsing and logging are not modelled. The session theorems are for a world that does not change and a standard output that takes everything; C86 is for any."
 ],
 "C83": [
  "proved",
  "The message about a text that is no program is that of C89. Texts made by the operating system are not modelled (message `none`)."
 ],
 "C84": [
  "proved",
  "The header is transcribed by hand (Spec/Abi); the 32 unused bytes at the end of a balance item are not shown by the tool."
 ],
 "C85": [
  "proved",
  "The rules of C78, C81 and C83 with nothing left open: `Spec/World` says what a path opens, how bytes are read as a struct, what casts, search() and histogram diagrams give and which messages they fail with; sessions and scripts of the model are exactly those of the rules in that world. OS error texts stay `none`; parse errors as in C89."
 ],
 "C86": [
  "proved",
  "Model/Main against Spec/Streams, both directions, for release builds; builds with overflow checks do the same or panic. Finding: `println!` makes btrd panic when standard output cannot be written (the banner, and `quit` at end of input or after a read error), while a failing `print` is an ordinary error. The warnings about unknown items are added by C87. Not modelled: a closed standard error, --debug logging."
 ],
 "C87": [
  "proved",
  "Model/Live (evaluator asking the operating system one request at a time) against Spec/Live, for every live world; the log of a whole session or script is honest, warnings on standard error are those of the log, numbers of values and warnings add up to the number of items, and besides the warnings everything is as in C86 when the world is steady during each entry."
 ],
 "C88": [
  "proved",
  "Model/Live against Spec/Moments and Spec/LiveSession in both directions, for every live world (hosts and filesystems that change between any two requests): values, messages, statements, sessions, scripts; deterministic; release builds never panic on an accepted program in any live world; in steady worlds the rules coincide with those of C86."
 ],
 "C89": [
  "proved",
  "Exact (iff) position and text, given pom 3.2's `end()`. Finding: the position is the beginning of the first statement that cannot be read, however deep inside it the mistake is, and counts characters of the text without comments, so it is not a position in what the user typed when there are comments."
 ],
 "C90": [
  "proved",
  "Model/Ioctl (repr(C) layout, nix's ioctl_readwrite!, memory of the arguments) against Spec/Ioctl (numbers and offsets of the kernel's header). Finding: the number is right only because the buffer size, which the code puts into the struct and the kernel does not, is a multiple of 16384 (C90_request_number_iff). Little endian host."
 ],
 "C91": [
  "proved",
  "Model/Debug over Model/Live, against Spec/Debug. The tables of Unicode used by escape_debug are a parameter. Not modelled: the time and level simplelog puts in front of each message."
 ],
 "C92": [
  "proved",
  "`Fed` says which entries a byte string holds; `feed` (readline_direct of rustyline 12 from its known source, with the validator of input.rs; the line editor at a terminal is not modelled) reads exactly that. Findings: exit status 0 although entries failed, continued lines at the end of the file are lost, an unreadable standard input (e.g. a directory) makes btrd print `quit` for ever."
 ],
 "C93": [
  "proved",
  "`C93_pieces` in any live world; the comparison of script and session in a world that does not change, with unlimited output. `C93_bare_differs` shows that the restriction on bare expressions is needed."
 ],
 "C94": [
  "proved",
  "C94_entry: one entry, any two related states, any live world; C94_mentioned: only mentioned variables matter; C94_session and C94_script: the process from outside; C94_builtin_differs: the condition on built-in names is needed. Spec/Rename defines the renaming."
 ],
 "C95": [
  "proved",
  "C95_entry: every entry, state, world and moment; C95_first/C95_nothing/C95_last/C95_keeps read off what InUse means; C95_start, C95_session, C95_script: from the start of the process."
 ],
 "C96": [
  "proved",
  "C96_session, C96_script: the whole sequence of calls of a process; C96_open: Fs::new alone; C96_prefix: every point of it; C96_pinned: a mounted filesystem in use stays pinned; C96_switch: the order of opening and releasing; C96_asked, C96_answered, C96_same_tree: the search requests. Assumes that the operating system gives out free numbers (Fresh) and that a filesystem in use stays mounted, or an image as long as it was (SameKind)."
 ],
 "C97": [
  "proved",
  "C97_session, C97_script: the acts of a process give its two streams, its answers and its exit; C97_killed, C97_killed_script, C97_every_part: killed at any moment; C97_script_causal, C97_session_causal, C97_session_goes_on: nothing depends on what comes later; C97_session_longer, C97_script_longer: endless runs; C97_session_checks, C97_script_checks: overflow checks; C97_in_order, C97_print: the order within a program."
 ],
 "C98": [
  "proved",
  "C98_session and C98_script: the run with a failing standard error is what the relation Survives of Spec/Stderr makes of the run of C97; C98_one: it leaves no choice; C98_lines: a standard error that takes k lines gets the first k; C98_script_dead, C98_script_success, C98_script_failure: the exit status of scripts."
 ],
 "C99": [
  "proved",
  "C99_session, C99_value, C99_program: every struct of a session, at any depth, in a world that changes as it likes, has the fields of the kernel's header; C99_same_fields, C99_access: so `.f` succeeds exactly for the fields of the header; C99_assignment: assignments keep name, key, fields and lengths; C99_known; C99_attained: each of the forms occurs."
 ],
 "C100": [
  "proved",
  "C100_cubic: no text makes the parser look at characters more than a constant times the cube of its length; C100_expression: a constant times the square for one expression; C100_same: the counting parser reads what the parser of the model reads; C100_all_seen: an accepted text is looked at completely, so the count is not vacuous. Counted are looks at characters of the input by the combinators, not the cost of building the tree."
 ],
 "C101": [
  "proved",
  "C101_entry, C101_script, C101_session for the same meaning; C101_entry_serves, C101_script_serves for runs without an error. C101_usual says sessions only have the states quantified over. Not among the places: the name that is assigned to (parentheses there change the meaning), field names, types of casts and the path of filesystem."
 ],
 "C102": [
  "proved",
  "All theorems are about the request list of Model/Handles and the replies of the kernel; C60 and C62 are about the result."
 ],
 "C103": [
  "proved",
  "`trees i` is what the filesystem holds at the i-th call of the search. C79 was strengthened to the same kernels (HonestFs, HonestHost)."
 ],
 "C104": [
  "proved",
  "Companion of C101. `x = x` is accepted for an unknown x and makes it known, hence only at the end of a block."
 ],
 "C105": [
  "proved",
  "Calls of the two recursive rules are counted, not bytes of stack; a text is measured by all the brackets in it, those in string literals included."
 ],
 "C106": [
  "proved",
  "c has no calls and no casts, so computing it again asks nothing of the filesystem; places are places of expressions that are evaluated (not field names, types or loop variables)."
 ],
 "C107": [
  "proved",
  "c has no calls and no casts; the loop variable of a `for` counts as mentioned."
 ],
 "C108": [
  "proved",
  "A condition with a call may have different values in a changing world, so such loops are left out."
 ]
}