# Formal model of ecoshub/jin — design

`/verif/properties.jsonl` lists the properties; `/verif/lean` is the Lean 4 model
and the proofs; `/verif/MANIFEST.json` maps properties to theorems.

## Trusted base

* The Lean 4.33.0 kernel, and the axioms `propext`, `Classical.choice`,
  `Quot.sound` that Lean's library uses. No axiom is added, and there is no
  `sorry`, `native_decide` or `bv_decide`. Concrete witnesses are closed by
  `decide +kernel` or `rfl`, i.e. by kernel evaluation only.
* Axioms per theorem (`#print axioms` on every theorem named in the manifest): each depends on a
  subset of those three. Witness theorems (`…_fails`, closed by evaluation) and theorems that only
  unfold definitions use `propext` and `Quot.sound`; theorems about trees also use
  `Classical.choice`, which enters through `omega`, `split` and `by_cases`.
* The hand translation of the Go code into `lean/Verif/Model/*.lean`. Every
  definition cites the Go lines it stands for. The Go code was read, not run.
  For the files named under "The text itself" this translation is proved correct (C98), and what
  is trusted instead is the reader `Go/Parse.lean` and the semantics `Go/Sem.lean`.
* The model of the library functions in `Model/Strconv.lean` (`Atoi`, `ParseInt`,
  `Itoa`, `FormatInt`/`FormatUint`), written from their documentation for a 64-bit platform.
* The model of what `strconv.ParseFloat(s, 64)` accepts in `Model/ParseFloat.lean`, and of the numbers it returns and `FormatFloat(x, 'f', -1, 64)` writes
  in `Model/Float.lean` (C128, C129 and C130 only), written from their documentation.
  Only C114, C128–C130 and the theorems of `Props/Number` use them; elsewhere the functions are parameters.
* The specification in `lean/Verif/Spec/*.lean`: what a JSON text is and what the
  property statements mean. It does not use the model's code.

## How the code is modelled

* A `[]byte`/`string` is a `List UInt8`. No function of the package writes through
  a byte slice it is given, so slices are values. `append(path, x)` is
  a fresh list there; Go may write `x` into spare capacity of the caller's slice.
* `Model/ByteMem.lean` and `Model/IterMem.lean` do not assume this: memory is a list of byte arrays, a
  `[]byte` is array, offset, length and capacity, slice expressions reach up to the capacity,
  `append` writes in place or allocates. The mutators, `Get`, the iterators and `walk` are modelled
  again over it, and C93–C95 relate them to the models on values (`core` only reads, so it is shared).
* `Model/ParserMem.lean` has the parsers over byte arrays and nodes at once: a node's value is a slice, a
  label is a string of its own or (from `byteArrayToString`, utils.go:147) a window on an array, with the
  bytes that the array has when the label is read. C112 relates it to the pointer model. Simplified: the arrays
  that `GetNew` makes and drops are left out, `newVal` is not `nil`, and a program ends at a panic.
* `Model/Mem.lean` models that: memory is a list of arrays of strings, a slice is array, offset,
  length and capacity, `append` writes in place or allocates (with any amount of spare capacity).
  The functions that append to a slice they were given (`AddKeyValue`, `Insert`, `Store`,
  `GetAll`, `GetAllMap`, `walk`, `Scheme`) are modelled again over this memory, and C75–C80 relate
  them to the models on values.
* A function returning `(T, error)` is an `Out T` (`ok`, `err`, `panic`). Index and
  slice expressions out of range, `nil` dereferences and `strconv` panics are
  `panic`. A mutator is a `Mut`: bytes *and* error, since both are observable.
* `for i := a; i < hi; i++ {…}` is the combinator `forUp hi body a state`; `body` is a
  non-recursive transcription of the loop body. `continue`, `break`, `return` and
  assignments to `i` are the constructors of `Ctl`.
* Integers are unbounded (`Nat`/`Int`): all of them are indices, counters or levels
  bounded by the length of the text. `Atoi` results are range-checked to 64 bits.
* Floats: `ParseFloat`/`FormatFloat` are uninterpreted (`FloatLib F`). Theorems hold
  for every such pair and state what they need as hypotheses; C128, C129 and C130 take the pair of `Model/Float.lean`
  and proves these hypotheses for it.
* A callback is a function on an explicit state that may stop, return an error or panic.
* `fmt.Sprintf("%v", e)` is modelled for strings, ints, bools and nil; other values
  are given by their printed text.
* Go map iteration order: theorems quantify over the entry list.
* `Parser` nodes: in `Model/Parser.lean` the tree is a value and pointers are label paths.
  `Model/ParserPtr.lean` does not assume this: nodes are cells of a memory with `up` and `down`
  pointers, and C96 shows that both models give the same answers. In it the stacks of `pCore` are
  lists, byte slices are values, and `dive` and `createTree` carry a bound on their depth that is
  shown to be enough.

* `Tree`/`TreeFull`: the padding of a label is a parameter (`pad`); C108 and C111 fix it to `pad6`, the
  padding of `%-6v` by the number of runes (`Model/Fmt.lean`).

Not modelled: `ReadFile`/`ReadJSONFile` (file system), `testing_utils.go`, memory exhaustion, concurrency. A nil `newVal` for `Parser.AddKeyValue` is in `Model/ParserNil.lean` and
C140 only; in a node it is the empty value, so that `Get` returns nil and not an empty slice is not seen.

## The text itself

`Go/Source.lean` holds the text of all files of the package except the tests, `testing_utils.go` and
`package_description.go`, as copied from `/repo`. `Go/Parse.lean` reads it into syntax trees (`Go/Syntax.lean`) when Lean
elaborates the file, `Go/Sem.lean` runs trees, `Go/Package.lean` puts the package together. C98 says
that a call of a function in these trees gives what the model gives.

* Names are numbers (their bytes in base 256). A variable is found in a list of entries, the latest
  first; a block drops the entries made in it.
* `fuel` bounds the rounds of each loop, `depth` the nesting of calls. A run that exceeds them, or
  meets something outside the fragment, is `stuck`; the theorems show that this does not happen.
* Given and not read: `strconv` as in `Model/Strconv.lean` (with the number `Atoi` returns beside an
  error, `atoiBad`), and the part of `fmt` that the package uses, `Model/Fmt.lean` (`%v`, `%-6v`, `%02d`).
* The functions of `errors.go` are run from their text as a program of its own (C110). When the rest of
  the text runs, `Err` and `errEqual` stand in their place; C110 shows that messages and answers are the same.
* A `*string` parameter is a variable that the function returns in front of its results (`createTree`).
* Integers are unbounded, slices are values, a `nil` slice is a value of its own. A call without any
  variadic argument gets an empty slice and not `nil`; of the functions read only `MakeArrayBytes`
  can tell them apart. For it at least one argument is assumed, and `C119_bytes_nil` has the call without one.
* A function parameter (iterators) is part of the context: a Lean function on an explicit state.
* The constant `-1` returned by `GetFloat` with an error stays an integer.
* `AddKeyValueString` with an empty key and `InsertString` with a negative index return a `nil`
  slice, `MakeJsonString` on slices of different lengths too; the model has the text resp. `[]` there.
* `JO`, `Scheme`, `Parser` and `sequance` are read as their fields: a method gets the fields of its
  receiver as arguments and returns them in front of its results. Two variables that
  point to the same structure would be told apart by this; the package has none.
* The nodes of `Parser` live in a memory (`heap`) that functions get and return; a pointer is an address
  in it, a `[]*node` a list of addresses (`nil` and empty are the same there).
* A call that changes variables and stands in an expression is run before the statement; the reader
  refuses it in the head of a loop.
* A function literal may change variables of its surroundings: it returns them in front of its results
  (`callLit`). A map is a list of entries in some order.
* A value of type `interface{}` is the text `fmt.Sprintf("%v", …)` prints for it.
* Skipped by the reader: `ReadFile`, `ReadJSONFile`, `byteArrayToString` (`unsafe`; the identity here). A variadic call with no argument
  gives an empty slice here and a nil one in Go; for `MakeScheme()` C104 has the call with nil.

## Specification

`Spec/Json.lean` defines concrete syntax trees: `Json` = scalar token | string content |
array | object, with the whitespace between tokens kept in the tree. `render` gives the
text, `WF` says the pieces are lexically right (whitespace is whitespace, string content
has no unescaped quote, scalar tokens have no structural byte). `Spec/Rfc.lean` is the
grammar of RFC 8259 over bytes, without trees (bytes from 0x80 up are allowed in strings, so
UTF-8 validity is not checked). C62 proves that every RFC text is the rendering of a `wf` tree
and that a text has one tree, so theorems over all `wf` documents cover all RFC texts. On trees, plain structural recursion defines: resolution of a path
(first matching key; decimal index), replacement, deletion, insertion, appending, renaming.

## Proof plan

Central lemma (`Proof/Core*`): on `pre ++ render v ++ post`, the walker lands on the value
that tree resolution gives. It rests on *skip lemmas*: each scanning loop passes over a
balanced piece of text at a deeper level and comes out with the same state. They are proved
once per loop body by induction on the tree, using one invariant on quotes: a quote that
opens a string is never preceded by a backslash, and inside a string a quote is escaped iff
it is preceded by an odd run of backslashes.

Every mutator then is: the located span, `replace`, and a tree lemma saying that splicing
the text is rendering the edited tree.

When the code violates a property, the property is *disproved* by a concrete witness
(theorem `…_fails`), and the strongest true restriction is proved as `…_partial`, with the
missing part named in its comment and in the manifest.

| property | modelled | proof |
|---|---|---|
| C01, C02, C05 | `Get`, typed getters, `core` | central lemma; formatting: same skeleton ⇒ same tokens |
| C03 | `core` on absent keys | witness for nested objects; partial: plain surroundings (`missOk`), or the quoted key not in the text behind (`fresh`, `Proof/Fresh`: loop invariant on arbitrary bytes) |
| C04 | array branch of `core` | skip lemma to the closing bracket |
| C06 | `core` on arbitrary bytes | invariant on each loop: offset in range; last byte stops the scans |
| C07–C15 | `Set*`, `replaceValue` | central lemma + splice = tree `set`; algebra on trees |
| C16–C19 | `Delete` | central lemma + neighbours of the span; tree `delete` |
| C20–C22, C29 | `Add*`, `AddKeyValue*` | same; absent key via C03's partial |
| C23 | `Insert*` | witness for a blank after the comma; partial otherwise; the condition is exact, because the result then has two commas with only white space between them outside strings, which an automaton finds in no JSON text (`Proof/Commas`, `Props/InsertExact`) |
| C24, C25 | `SetKey` | span of the key, C03's partial |
| C26 | `Store*` | unfold; C01 and C03 |
| C27, C28, C52 | all mutators | case analysis of every return, arbitrary bytes; witnesses for the two nil returns |
| C30, C31 | iterators | induction over the element list with the callback state |
| C32–C36, C61 | readers of all members | same loop invariants |
| C37–C39 | type tests | central lemma with `justStart`; witnesses for `IsEmpty`, `IsObject` |
| C40, C41 | `Flatten`, `Indent` | induction over the tree; witness for `\\"` |
| C42–C47 | `Make*`, `formatType` | builder text = rendering of a tree, then the readers; witnesses; which floats are written (`Props/MakeFloat`) |
| C48–C50 | `Scheme` | state machine invariants; C01 |
| C51 | `JO` | definitional per method plus equality of the duplicated `Store`; call sequences by induction |
| C53–C56 | `Parser` | invariant of the building loop: open nodes = prefix of the tree; witnesses for the mutators |
| C64 | `Parser` call sequences | invariant "tree = parse of the text, up to root and lone marks" kept by each call; induction over the calls |
| C65, C69 | typed `Parser` getters and writers | delegation to C53–C56, C64 and to the byte-level writers |
| C66 | `Parser.Get` after `Set` | `dive` re-renders a value: induction on the tree; witness: the root value is stale |
| C67 | `Parser.Insert` | the new tree and the parsed one are alike at every path; witness: second `Insert` mislabels |
| C68 | `Parser.Tree`, `TreeFull` | output = outline of the document, induction on the tree; after calls `Drawn` (`Props/TreeFull`) |
| C70, C71 | `Get` and the mutators on arbitrary bytes | loop invariants: what `core` finds is delimited, and the key it reports is in the text; witness: `Delete` behind a leading comma |
| C72 | mutators on arbitrary bytes | C06's invariant; `SetKey`: two paths that differ in the last entry walk in step; witnesses for `Insert`, `Delete` |
| C73 | errors on cut-off, empty and blank texts | the array loop counts commas; unfolding on the other texts |
| C74 | `Add`, `Insert`, `AddKeyValue` at the wrong kind of value | the first byte of the span; witness: a string that looks like an array |
| C75, C76 | functions that append to the path slice, in memory | frame: only the cell behind the path changes; witnesses with `args[:1]` |
| C77 | `Walk` in memory | the two walks run in step (simulation of the loops, any bytes); witness: siblings at depth four |
| C78–C80 | `Scheme` in memory | invariant over histories: spare cells of the keys are no saved keys; witnesses |
| C81, C82 | `Get`, `Set` with split paths | C01, C12 on the part, which is a document itself |
| C83 | text behind the document | the lemmas on `core` need no end of the text (`_open`); witness: a missing key is found behind the document |
| C84–C87 | `Length` after mutations, undoing `Insert` and `SetKey`, order of `Delete` and `Set` | the exact trees from C16–C24; byte equality of the trees; witness: `Length` of `[5]` |
| C88 | positions in BadJSON errors | every error value followed through `core` and the callers on arbitrary bytes; `core_shape` bounds the key position |
| C89 | `Parser.AddKeyValue`, existing key | nodes of a parser in step (C64) carry the keys; C22 below the root; witness: the refused node stays in the tree, the wrong object is searched |
| C90 | `IterateArray` on arbitrary bytes | loop invariant: the quotes since the last comma are paired, so `cleanValue` never meets a lone quote |
| C91 | `GetKeys`, `GetValues`, `GetKeysValues`, `IterateKeyValue` on arbitrary bytes | the loops see what `Spec.scan` sees; invariants in both directions give the exact set of texts; witnesses |
| C92 | `Parse` on arbitrary bytes | the stacks of `pCore` are as deep as `Spec.scan` says; invariants in both directions; witnesses |
| C93 | mutators over byte memory | `replaceMem` allocates; each mutator over memory refines the one on values and leaves a longer heap (`Apart`) |
| C94 | `Get` over byte memory | result is a window of the document; exact effect of `append`; disproved by a witness |
| C95 | iterators and `Walk` over byte memory | simulation of loops that re-read the document; disproved for writing callbacks by witnesses |
| C96 | parsers over a memory of nodes | `Here` relates a tree to its cells; each method simulates the one on values; a session is a list of calls on several parsers |
| C97 | shape of the memory of nodes | from the relation of C96: distinct pointers within a tree and between parsers |
| C98 | the text of the package run in Lean | each function executed symbolically (`run_go`), each loop by induction against the loop of the model |
| C99 | termination of the text | bound on the rounds of every loop from C98 |
| C100, C101 | C01, C03, C06, C08–C10, C16, C20–C24, C30–C32, C36, C40 for the text | C98 and the theorem of the model |
| C102 | `core` and `walk` on arbitrary bytes | each level of a path ends at a later byte than the one before; a search that no longer moves sees only white space behind it and fails |
| C103 | methods of `JO` in the text | C98 for the function the method calls |
| C104 | `Walk`, iterators, maps, `Scheme` in the text | a relation between the states of two callbacks holds through a run (`Go/Param.lean`); fuel and depth bounded by the length of the text (C102) |
| C105, C106 | the same functions | C104 and the properties of the model (C34, C35, C48, C49, C50, C57) |
| C107 | `Parser` in the text | each function of the text against the pointer model (`Go/ParserM`, `ParserMut`, …), each method keeps the memory closed (`Go/ParserKeep`), C96 |
| C108 | typed methods of `Parser` in the text | C107, and each typed method reduced to the one it calls (`Go/ParserTyped`, `ParserArray`, `ParserAll`) |
| C109 | `Parser` in the text | C108 and the properties of the model (C53, C54, C55, C56, C64, C65) |
| C110 | errors.go in the text | run as a program of its own (`Go/Errors`) on `Model/Fmt`, and C58 |
| C111 | `Tree`, `TreeFull` in the text | run of `createTree` (`Go/Tree`), and C68 |
| C112 | parsers over byte memory and nodes | every function of `Model/ParserMem` simulates the pointer model (`Proof/ParserMem*`); arrays are only added; C96 |
| C113 | what a parser shares | loop invariant of `pCore`: all it keeps are windows of the text; the text after an edit is in a new array; `Set` keeps the slice; disproved by witnesses |
| C114 | `isFloat`, `GetType` on numbers | the parts of an RFC number read off the automaton; the readers of `Model/ParseFloat` run over them; comparison of powers |
| C115 | which slices a parser keeps | invariant over all edits: each slice in a node is from before, of the value given or of the text (`Props/ParserMemShare`); so a syntactic rule for programs implies the hypothesis of C112 |
| C116 | UTF-8 in, UTF-8 out | every position where a text is cut is beside an ASCII byte, an end of the text, or an end of a part (`Beside` in `Proof/Utf8`); UTF-8 texts cut there give UTF-8; `strconv.FormatFloat` is assumed to give UTF-8 |
| C117 | `Parser.GetNew` of UTF-8 | right after `Parse` by the invariant of `pCore`; disproved in general by a witness: `Set` of a container to `~` |
| C118 | calls of the text one after another | C04, C11–C15, C17, C18, C25, C28, C29, C42–C44, C81, C82, C85–C87 carried over by the `text_` theorems (`Props/TextRound`) |
| C119 | readers and builders of the text | C05, C33, C37–C39, C41, C45–C47, C61, C73, C74 carried over (`Props/TextRead`, `Props/MakeSlice`) |
| C120 | RFC 8259 texts and the text | C60 and C63 carried over (`Props/TextRfc`); the full statement for `Insert` is refuted |
| C121 | UTF-8 in and out of the text | C116 carried over (`Props/TextUtf8`); texts inside errors and the parser are left out; `strconv.FormatFloat` is assumed to give UTF-8 for `JO` |
| C122 | UTF-8 and the parsers of the text | the invariant of C116 over programs on values, which answer as programs on the text do (C108); `GetNew` is left out, with a witness |
| C123 | more about the parsers of the text | C66, C67, C69, C89 and C92 through the relation between parsers of the text and values (`Props/TextParserMore`) |
| C124 | the text on arbitrary bytes | C26, C70–C72, C83, C84, C88, C90 and C91 through the runs of the text (`Props/TextBytes`) |
| C125 | formatting and mutations | `strip` commutes with updates of trees; the tokens of a container are its kind and the tokens of its entries; then C08, C16, C20, C21, C23, C24 on both documents (`Props/FormatMut`, `Props/TextFormat`); whole sessions in `Props/FormatSession` |
| C126 | key lists and elements after mutations | the entries of the new container (C16, C20, C21, C23, C24), read by C30 and C32 (`Props/ListsFollow`, `Props/TextLists`) |
| C127 | sessions of mutations | values without layout and edits on them (`Spec/Plain`); one call by C08, C16, C20, C21, C23, C24, then induction over the session (`Props/Session`, `Props/TextSession`) |
| C128 | floating point numbers | `strconv` as in `Model/Float`: the bits written are those of a decimal number that rounds to them, as with all digits the number is exact; the rounding is the nearest of the two neighbours, and bits grow with numbers (`Proof/Float`, `Props/Float`, `Props/TextFloat`) |
| C129 | lists built by `Add…` and read whole | `Add` appends an element with nothing behind it, so the array readers see all of it; induction over the list (`Props/Built`, `Props/TextBuilt`) |
| C130 | `Add…` and `Make…` | both write the document without whitespace that has these values; induction over the list (`Props/Built`, `Props/TextBuilt`) |
| C131 | every value has a session that builds it | breadth first: all entries of a container as scalars and empty containers, then each is filled in order, so what follows is always small enough for `AddKeyValue` to notice that a key is missing (`Props/Builds`, `Props/TextBuilds`) |
| C132 | the readers of a container agree | from the exact results C30, C31, C33, C35, C36 and C61, with distinct keys so that `Get` of a key finds its own member (`Props/Agree`, `Props/TextAgree`); the conditions on white space are those of C33 and C61, and `C132_fails`, `C132_array_fails` show what goes wrong without them |
| C133 | mutations and sessions in separate parts commute | what a mutation puts in place of a value depends on this value only (`edit_local`), and replacements on diverging paths commute; byte for byte, with all white space (`Props/Commute`, `Props/Interleave`, `Props/TextCommute`); `C133_refused`: `AddKeyValue` may be refused in one of the orders |
| C134 | calls below a path are calls on the part, put back | what a mutation puts in place of a value does not depend on the path to it (`edit_under`); `C134_refused`: `AddKeyValue` may be refused in the document and not on the part (`Props/Relative`, `Props/TextRelative`) |
| C135 | `Set` and `Delete` leave nothing of calls inside the value | `inside_session`: such calls only replace the value (`Props/Relative`, `Props/TextRelative`) |
| C136 | text of a parser after calls that succeed | C54, C56, C67 for one call in any state, then C127 (`Props/ParserSession`); `C136_fails`: `SetKey` reports success and changes nothing, `Add` to an empty root |
| C137 | mutation inside an entry beside Add, Insert, AddKeyValue, SetKey, Delete in its container | the container after both orders is the same tree (`Props/CommuteSame`), each call by its equation on documents; text: `Props/TextCommuteSame` |
| C138 | changes of the entries of one container in either order | a session below a path does to the value there what it does to a value (`under_session`), then laws of values (`Props/CommuteEntries`); `C138_bytes`: not byte for byte |
| C139 | order of calls on a parser | C136 for each parser, then C133 or C138 for the text (`Props/ParserCommute`); `C139_fails`: `SetKey` that does nothing and reports success |
| C140 | `Parser.AddKeyValue` of nil | `Model/ParserNil`, run in the text (`Go/ParserAddNil`), pointers and trees agree (`addKeyValueNil_sim`); case analysis (`Props/ParserNil`) |
| C141 | paths that lead nowhere | two runs of the path walker side by side, on a path and on a longer one (`Proof/Lost`), then case by case (`Props/Lost`, `Props/TextLost`) |
| C142 | `MakeArrayFloat`, then `GetFloatArray` | C47 exactly (`Props/MakeFloat`), C61 and C128 (`Props/FloatTrip`) |
| C143 | `Get` of containers of a parser after a call | value trees in any state (`Props/Fresh`), programs on the text (`Props/TextFresh`) |
| C144 | `Get` of a parser elsewhere after a call | value trees in any state (`Props/Aside`), programs on the text (`Props/TextAside`) |
| C145 | what is inside an object or array that a parser was given: false; it is read with a `0` put in between | value trees (`Props/Deep`), programs on the text (`Props/TextDeep`) |
| C146 | `SetKey` of a parser refuses a taken key and a path that leads nowhere | value trees in any state, programs on the text (`Props/Taken`) |
| C147 | the place of `Delete` and `SetKey` of a parser afterwards | value trees in any state, programs on the text (`Props/Moved`) |
| C148 | a scalar that `AddKeyValue` put into a parser is found | value trees in any state, programs on the text (`Props/Plain`) |
| C57 | `Walk` | induction over the tree with C30, C31, C39 |
| C58 | `ErrEqual` | last two bytes of the message are the code |
| C60, C62, C63 | `formatType`, mutators | grammar ⇔ strict trees; tree edits keep strictness; witnesses `+5`, `[x]` |
| C59 | sized-integer writers | base 64 always panics; base 32 differs from decimal from 10 on |

## Files

`Model/` — the translation: `Basic` (bytes, results, loops), `Utils`, `Strconv`, `Core` (the
walker), `Get`, `Set` (all mutators), `Iter`, `Others` (type tests, `Flatten`, `Indent`), `Make`
(builders, `Scheme`, `JO`), `Parser`, `ParserMore`.
`Spec/` — documents and operations on them: `Json` (trees, paths), `Edit`, `Eq`, `Format`,
`Rfc` (the grammar), `Tree` (what a parser node stands for), `Scan` (arbitrary bytes), `Utf8`, `Plain` (values without layout).
`Proof/` — lemmas about the model: `Loop`, `Skip*`, `Find`, `Core*` (central lemma), `Miss*`
(absent keys), `Upd`, `AddIns`, `Span`, `Edges` (splices), `Iterate`, `Entries`, `NoPanic`, `Shape`, `Lock`,
`Print`, `Split`, `Rfc`, `Unique`, `Parser*`, `Scan`, `Robust` (arbitrary bytes).
`Props/` — one theorem group per property, with a non-trivial instance of the hypotheses beside
each theorem. `Props/Sample` holds the sample documents.
`Go/` — the text of the package (`Source`), its reader and semantics, and the proof that it does what
the model does (`Core` … `Make`); `Text` has the calls in their final form.
`seeded/LOG.jsonl` — wrong programs tried against the theorems.
