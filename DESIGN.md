# btrd in Lean 4: design

The model is one executable Lean program, `source text -> parse -> analyse -> evaluate -> output`,
written function by function from `/repo/src`. Theorems are about that program.

## Layout

| Lean module (under `lean/Verif/`) | models |
|---|---|
| `Model/Base` | strings (`List Char`), bytes, `Result`/panic/divergence (`Fail`), i128/u64 ranges and wrapping |
| `Model/Input` | `src/input.rs` |
| `Model/Ast` | `src/lang/ast.rs` |
| `Model/Pom`, `Model/Parse` | the pom combinators used, `src/lang/parse.rs` |
| `Model/ParseCost` | the same rules with the number of looks at characters (no claim about the time of anything else) |
| `Model/Nesting` | the same rules with a limit on the calls of `expr` and `stmts` inside each other (calls, not bytes of stack) |
| `Model/Variables` | `src/lang/variables.rs`, `src/lang/functions.rs` |
| `Model/Structs` | `src/btrfs/structs.rs` |
| `Model/Value`, `Model/Hist`, `Model/Decode` | `src/lang/eval/value.rs` |
| `Model/Definitions`, `Model/StructTable` | `src/btrfs/definitions.rs`: constants and struct table (generated from the Rust by `tools/gen_definitions.py`) |
| `Model/Dynamic` | the two dynamic struct layouts of `src/btrfs/definitions.rs` |
| `Model/Fs` | `src/btrfs/fs.rs` |
| `Model/Semantics` | `src/lang/semantics.rs` |
| `Model/Eval` | `src/lang/eval/eval.rs` |
| `Model/Runtime` | `src/lang/runtime.rs`, `repl`/`script` of `src/main.rs` |
| `Model/Main` | `main`, `repl`, `script`, `welcome` of `src/main.rs` as a process: standard output, exit status |
| `Model/Live` | the evaluator and the process once more, as a program that asks the operating system one request at a time and writes warnings; every request is answered by the world of its own moment |
| `Model/Ioctl` | the argument and the number of the system call in `src/btrfs/fs.rs` (repr(C) layout, `ioctl_readwrite!`) |
| `Model/Debug` | `--debug`: the `info!` messages of `src/main.rs` and `src/btrfs/fs.rs` |
| `Model/Stdin` | what `readline` of rustyline returns when standard input is a file or a pipe, with the validator of `src/input.rs` |
| `Model/Handles` | the system calls of `src/btrfs/fs.rs` with the descriptors and mappings they open and release |
| `Model/Trace` | the statements of `src/lang/eval/eval.rs` and the loops of `src/main.rs` with every write, request and answer as an act, in order; a line on standard error counts as one act |
| `Model/Stderr` | the same where lines on standard error may fail to be written: `eprintln!` panics, the logger, the panic handler and the error `main` returns do not care (simplelog's and the standard library's behaviour, not in this sandbox) |
| `Model/Scripts` | the texts of `scripts/*.btrd` |
| `Spec/*` | small specifications that do not mention the model's helpers |
| `Lemmas/*` | helper lemmas |
| `Validation/*` | all 39 unit tests of the project, case by case, on the model (tests, not proofs); `Parse`, `Eval` and `Semantics` are generated from the test data in /repo by `tools/gen_tests.py` and `tools/gen_tests2.py` |
| `Props/*` | the property theorems, one section per property, with non-vacuity examples |

## Modelling decisions

* Text is `List Char`; a Rust `String` is a sequence of scalar values, so this is exact. Byte strings
  are `List UInt8`. Output is the list of characters written to the sink.
* Integers of the language are `Int`; each operation performs the range check / wrap that the Rust
  i128 operation performs. That every reachable integer is in range is a theorem (C23), not a type.
* `Result::Err`, panics and non-termination are data: `Fail = err e | panic | diverge`. A panic ends the
  process. `diverge` is "did not finish within the step bound `fuel`"; statements are quantified over all
  bounds, and C67 shows the bound is irrelevant once large enough.
* Arithmetic overflow behaves differently in debug and release builds of Rust. The build profile is a
  parameter (`Cfg.build.ovfChecks`) and theorems hold for both unless they say otherwise. C70 and C71 relate the two.
* `BTreeMap` scopes are functions `name -> Option value` (they are never iterated).
* `Cfg` = build profile, host, interactive or not, step bound. `State` = sink, scopes, current filesystem.
* The operating system is a parameter `Host`: which paths open as directories / files, their statfs type
  and contents, and the replies of the search ioctl. A reply is an arbitrary function of the arguments and of the
  number of the call within one search (so a kernel may answer the same arguments differently on each call of one
  search). In `Model/Eval` it does not change between two searches of one entry; in `Model/Live` every search, every
  read of an image and every opening is answered by the world of that moment, and C87 shows that where the world is
  steady during an entry the two models do the same. Theorems that need an honest kernel state the
  contract explicitly (`Spec/Search`: `Honours`, over trees of items).
* Errors are structured constructors carrying what their message shows; `Err.text` (Model/Message) is the text of each,
  except for errors of the operating system, whose text is not modelled (that of parse errors is pom's, see C89).
* The sink accepts a given number of characters (`room`, or unlimited); a write that does not fit writes what
  fits and fails. `State.new cfg room` is the initial state.
* The parser is the actual recursive-descent parser: pom combinators over `List Char`, with a bound on nesting that
  C10 proves irrelevant.

## Not modelled

Terminal handling, line editing at a terminal (only what `readline` returns; from a file or pipe its events are computed, C92), contents of the history file, the time and level in front of log messages (simplelog), clap, `getcwd` (its result is a parameter), text of operating system errors, memory and stack limits (deep recursion), modification of an mmapped
image in the middle of one read, `unsafe` pointer casts (the header cast in `search` is modelled as little-endian field reads; the argument of the
system call by its repr(C) layout, C90; the host is little endian).

## Trusted base

Lean 4.33.0 kernel; axioms `propext`, `Classical.choice`, `Quot.sound` at most (no others, no `native_decide`,
no `bv_decide`); the reading of the Rust code into the definitions of `Model/*`, of the pom 3.2 combinators
(`Model/Pom`; pom's source is not in this sandbox, semantics written from its documentation and known source; for
the message of C89 that `end()` fails with `Mismatch`, the position and `expect end of input, found: {}`, shown as
`Mismatch at {}: {}`), and of
the Rust standard library functions used (`str::lines`, `trim_end`, `ends_with`, `escape_default`, checked
integer operations, `as` casts, `u64::from_le_bytes`, `escape_debug` up to its Unicode tables), of repr(C) and of
nix's `ioctl_readwrite!`; of `readline_direct` of rustyline 12 (its source is not in this sandbox either).

## Plan per property

Proof shapes: (R) round trip, (I) invariant by induction, (S) equality with an independent spec,
(N) negation by a concrete witness plus a `_partial` theorem for the part that holds.

| Id | Plan |
|---|---|
| C01 | S: `strip_comments` = spec by per-line cut position |
| C02 | N: escaped quote followed by `#` is cut (witness); partial for bodies without quotes/newlines; exact condition (C02_exact) by induction on the body over the one-pass form of the stripping |
| C03 | S for `fixup_input`; idempotence |
| C04 | N: `strip_comments` turns the newline into a space first, so the backslash survives (for all inputs); exact condition: C04_exact |
| C05-C07 | R: induction over trees; a printing relation with arbitrary whitespace, `parse` inverts it |
| C08, C09 | R on literals |
| C10 | I: consumption lemmas for each rule; fuel independence |
| C11 | N: `true...`/`print...` prefixes; partial for all other identifiers; exact conditions (C11_exact_*) as instances of C73_exact |
| C12 | consequence of the statement parser, for all inputs |
| C13 | S: refinement of the scope stack to its list of maps |
| C14, C15 | I: induction over statements and loop iterations |
| C16, C17 | I: relation between analysis and evaluation |
| C18 | I over the analysed program |
| C19 | N: `x = x;`, if/else sharing a scope, failed lines; partial for a strict check. The gaps are shown to be all there are (Props/Blame) by running the error analysis per variable |
| C20, C21 | I over sessions |
| C22-C30 | S: direct, over all integers/values (C22 fails for unary minus at i128::MIN, C26 for overflowing `<<`: N) |
| C31-C33 | S/I: frame theorems over states, paths by induction |
| C34-C40 | S: unfolding laws and invariants over all executions |
| C41, C42 | S, I over values |
| C43 | N: a maximum that is a power of two is not counted; partial otherwise; exact condition: C43_exact |
| C44 | N: hangs at >= 2^126; partial below; exact condition: C44_exact |
| C45 | I over buckets |
| C46-C49 | S |
| C50-C54 | I over struct descriptions; C50 additionally over the table of known structs |
| C55 | I over the scan loop |
| C56 | N: several inline refs share one name; partial for all fixed layouts; exact condition: C56_exact |
| C57 | S: exact dispatch function, N for DIR_LOG_ITEM; exact condition: C57_exact |
| C58 | N: positions >= 2^64 are truncated; partial below; exact condition: C58_exact |
| C59 | N: the cast passes only the fixed part of the struct; exact condition: C59_exact |
| C60 | I over ioctl calls; N: an unbounded search is not continued, an item at offset u64::MAX makes it fail; C60_exact, C60_bounded_all_or_error |
| C61, C62 | I over arbitrary kernel replies |
| C63, C64 | S |
| C65, C66 | I over event lists |
| C67 | I: monotonicity in the bound |
| C68 | finite table, kernel-checked; N: two kernel constants differ (value, name); exact condition: C68_exact |
| C69 | N: the path is escaped before it is opened (for every path with an escaped byte); partial for plain paths; C69_exact |
| C70 | I over all executions: no reachable panic without overflow checks |
| C71 | I: relation between the two profiles over all executions |
| C72 | N: payload lengths put headers at misaligned positions; partial for multiples of 8; C72_exact |
| C73 | I on the length of the text: soundness of every grammar rule against an independent token grammar; exactness (C73_exact): the reading lemmas of C05/C06 hold for tokens set down without any blanks, by grafting a keyword onto the expression it is glued to; which statements the keyword rules claim before the expression rules are tried is decided from the tokens alone (`Taken`), by induction on what can follow the first word |
| C74 | C73 composed with the round trip (C05, C06); for all programs (`C74_reprint_any`) by respelling the literals of the accepted text (`Twins`), which keeps every statement in its form |
| C75 | symbolic execution of the parsed script, I over its loop |
| C76 | symbolic execution of the parsed script, I over both loops, with C43, C57, C60 |
| C77 | S, over all values |
| C78 | S: inference rules in Spec/Rules (no step bound), soundness and completeness by mutual induction on programs and on derivations; determinism by induction on derivations |
| C79 | S: reachability and the reasons for never ending in Spec/Forever, over the rules of C78; both directions by mutual induction on programs, resp. on derivations; the two system-level reasons (search, histogram) characterised on their own |
| C80 | S: `LaidOut` (tokens and gaps of blanks, line ends and comments) in Spec/Source; comment stripping of a laid out text is a spacing of the same tokens, then C06 |
| C81 | S: `Learns`, `Talks` (Spec/Session) over the rules of C78; induction on the entries |
| C83 | S: `Refused…` (static), `Complains`, `Fails…` (running) in Spec/Messages, over the rules of C78; both directions by mutual induction on programs, resp. on derivations; uniqueness |
| C84 | S: Spec/Abi (table of byte offsets transcribed from btrfs_tree.h, paths by `Located`); agreement of the tables member by member, the rest by C52/C54 and induction on paths |
| C85 | S: `Spec/World` (open, read, cast, search, diagram, messages as inductive relations) proved equivalent to the model function by function; rules transferred by induction over derivations between worlds that agree on values that can arise |
| C86 | S: `Model/Main` (process: standard output, standard error, `println!` panics, exit status; the host and the filesystem may change between events) against `Spec/Streams` in both directions; simulation lemmas for less room (`Lemmas/Room`) and for overflow checks |
| C87 | S: `Model/Live` (trees of requests and warnings, live worlds, the log of what happened) against `Spec/Live`: every evaluator tree warns exactly about what it skips (closed under sequencing), hence honest logs of whole sessions; equality with `Model/Main` besides the warnings in worlds that are steady during an entry |
| C88 | S: `Model/Live` against `Spec/Moments` (each operation given by the rules of C85 on its operands at its moment; which operands are needed is read off the rules too) and `Spec/LiveSession`: soundness by recursion on expressions and statements, completeness by recursion on derivations with `enough steps`; safety (`Lemmas/MomentsSafe`) |
| C89 | S: `parseError` against `Spec/Unread` (behind the longest initial part that is a program in writing, C73): a program reads its own text wherever it is followed by something unreadable or reads further (`Lemmas/Unread`), so no longer part is a program; the messages join the rules of C83, C85, C86 and C88 |
| C90 | S: `Model/Ioctl` (repr(C) layout computed from the field list, nix's number, stores of `search`) against the constants and byte offsets of the kernel header in `Spec/Ioctl`; a kernel served through memory honours its promise (C60), for requests in range, which all requests of the evaluator and of the loop are |
| C91 | S: `Model/Debug` (the process of `Model/Live` with messages) erases to `Model/Live`; messages by induction over the loop of `search` and over the events; `escape_debug` injective by reading back one character |
| C92 | S: `Spec/Stdin` lists the shapes of lines; `feed` = `Fed` both ways by induction over the bytes; exit status from the session theorems of C88 with unlimited output |
| C93 | I: parser, analysis and evaluation of a concatenation are the concatenation; induction over the lines of a script; evaluation of statements without bare expressions does not depend on being at the prompt |
| C94 | Spec/Rename: renaming of programs, states, events, lines. Lemmas/Sim: a simulation on live computations (same requests and warnings whatever the answers, related results), with all operators; Lemmas/Rename: evaluator and analyzer related under the renaming (scope by scope, names of a set X on which ρ is injective). Props/Rename lifts to entries, sessions, scripts. |
| C82 | S: `Model/Main` (process: standard output and exit status) against C78/C65/C70; UTF-8 by Lean's own encoder |
| C95 | Spec/InUse: an inductive relation over the log of a live run (moment, filesystem in use before, events, moment and filesystem in use after). Lemmas/InUse: a predicate on computations, closed under sequencing, proved of every operator, expression, statement; Props/InUse lifts it to entries, sessions, scripts and derives the readable consequences. |
| C96 | Model/Handles: the system calls of fs.rs with the drops of Dir, File and MmapMut, over the live computations of Model/Live. Spec/Handles: which calls are in order, as a relation over tables of what is open, and what is open for a filesystem in use. The invariant `OpenFor` holds between requests by induction over computations that ask the filesystem in use (C95's `Uses`), then over sessions. |
| C97 | Model/Trace: the statements of Model/Live once more with each write as an act of its own, and the acts of sessions and scripts. Spec/Trace: the views of a sequence of acts, killing, the acts before the n-th request. Proved by erasing the writes (equal to Model/Live), by an invariant of computation trees for the output, by induction over trees for causality, and by a relation between trees (`Below`) for longer runs and overflow checks. |
| C98 | S: a second evaluator of the trees of C97 that panics at failing lines, compared with the first by a cutting relation that composes along the acts; consequences by induction over Survives |
| C99 | Spec/Shape: the fields each struct has, from the transcribed header of Spec/Abi. Lemmas/Values: a toolkit for invariants of values over the live evaluator (`Lasting`), instantiated for shapes and for integers (C23 in a changing world) in Lemmas/Lasting. Proved by induction over expressions, statements and events; the structs read by the decoder are shaped by the layout relation of Lemmas/Laid. |
| C100 | Model/ParseCost: the combinators and rules of Model/Parse again, each returning the number of looks; equal results by a relation between the two (Lemmas/ParseCost). The bound is amortised: a rule costs a constant for each character it takes, unless it looked far ahead in vain; then the text left begins with an operator and something an operand can begin with, or an unclosed bracket or block (`Stuck`), and none of the rules that may come next looks far there, as no two operators of the grammar can be read at the same place with an operand behind both (`clash`, checked for all pairs). Induction over the nesting bound. |
| C101 | Spec/Exchange: same meaning, serving, and the closure of a relation on expressions under all contexts of the language. Proof: one simulation on the derivation of the closure, for the analyzer and for the asking evaluator of Model/Live, with a switch whether failing runs count; loops by induction, the invariant on values of C23 carried along (Lemmas/Values); laws by equations of the evaluator's monad. |
| C102 | S: `Requested`, `Replied` in Spec/Changing; one induction over the loop (`course` in Lemmas/Changing) gives requests, replies and result together; EOVERFLOW through the memory model of C90 |
| C103 | S: `HonoursEach`, `OrderedEach` in Spec/Search; the same induction as C102; termination because the requests rise and there are only 2^136 keys |
| C104 | Spec/Rewrite: the same effect, standing in, and the closure of a relation on runs of statements under all contexts. Proof: one simulation on the derivation of the closure as in C101; Lemmas/Merge: two scopes made one commute with evaluation and checks, which gives the laws that remove a scope; Lemmas/KeptScopes: statements leave as many scopes as there were, those without a jump end without one |
| C105 | Model/Nesting: the grammar with both recursive calls limited, a call at the limit being an arbitrary parser. Lemmas/Nesting: two parsers that agree on texts with fewer brackets agree, rule by rule, on texts with one more (each recursive call stands behind a bracket; every rule leaves a suffix). Props/Nesting: the limited grammar reads what the grammar reads if the limits exceed the counts; induction on the depth for the two families that need the room. Lemmas/NestingTree: the trees the limited grammar returns nest less deep than the limits (the rules build trees out of parts, those in brackets from the nested call). |
| C106 | Lemmas/Propagate: a statement that does not assign to a name leaves what every scope holds under it as it is, in whatever world (the live evaluator, statement by statement, whatever the answers are); two programs that differ in expressions that have the same value in a state run the same from it, and again from every state that comes of it; the same for the checks, where known names stay known; expressions without calls and casts neither ask nor warn and depend on their variables only; inserting twice is inserting once. Props/Propagate: put together as exchanges in the sense of C104, and four programs for which the replacement is wrong. |
| C107 | Lemmas/Unaware: a relation between two computations of the live evaluator (same clock, log, and related results, whatever the world answers) that is closed under sequencing, scopes and loops; each statement not mentioning x relates states that differ in x; the same for the checks. Two variable stacks that differ in x at most are equal if they agree on what each scope holds under x, which gives the exchange of the order; Props/Unaware: the laws and three programs for which they fail. |
| C108 | From Lemmas/Propagate (statements leave alone what they do not assign to; expressions without calls depend on their variables only), Lemmas/KeptScopes (no jumps out) and Lemmas/Unaware (no `quit;`): the condition has the same value before each iteration, by induction on the bound. |
