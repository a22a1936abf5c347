# Formal model of SudachiPy in Lean 4 - design

## Method

The code is Python/Cython; it is modelled function by function as total, computable Lean functions
(`lean/Verif/Model/*.lean`).  Exceptions are values (`Except Err α`), mutation is state passing, a loop is a
structural recursion / fold, or takes fuel when its termination is itself a property.  Every model definition
cites the file and lines it models and says where it simplifies.

* `Verif/Model/*`  - the model (cites /repo).
* `Verif/Spec/*`   - small, separate specifications used in theorem statements (no model helpers).
* `Verif/Lemmas/*` - helper lemmas.
* `Verif/Props/*`  - the property theorems, each followed by `example`s showing its hypotheses are met by a
  concrete non-trivial case.
* `Verif/Replay/*` - the repository's own unit tests, run on the model (checks, not proofs; see "Testing the model").

## Data representation

* Python `str` = `List Nat` of code points (so lone surrogates are representable and `encode('utf-8')` fails on them).
* `bytes` = `List Nat` with entries < 256.
* Python ints = `Int` / `Nat`; C `int` path costs are `Int` with explicit wrap-around `wrap32`.
* A set of `CategoryType` = list (order = unspecified iteration order; theorems hold for every order; what the order can change is C85).
* A `LatticeNode` with its `best_previous_node` chain is an inductive value `LNode`; nodes are never modified
  after `connect_node`, so object identity is only needed for the BOS sentinel, which is its own constructor.

## Plan per property

| id | modelled | proved how |
|----|----------|------------|
| C01 | tokenize end to end: builder, plugins, lattice, path rewrite, morpheme list | lattice path tiles [0,n]; rewriting coarsens; position map monotone 0..len; telescoping slices |
| C02 | + `_split_path` | tiling preserved when split lengths add up; counterexample otherwise |
| C03 | morpheme list accessors | corollary of the position-map invariant |
| C04 | `UTF8InputTextBuilder.replace` | closed form of the in-place edit; invariant by induction over edits |
| C05 | same | case analysis over Int arguments |
| C06 | `build`, `UTF8InputText` accessors | closed form per character, induction over the text |
| C07 | accessors | induction |
| C08 | `_build_can_bow_list`, `can_bow`, `get_word_candidate_length` | induction + UTF-8 lead-byte lemma |
| C09 | continuity computation | greedy-run induction; counterexample for incompleteness |
| C10 | `_compile`, `get_category_types` | sweep-line invariant for an arbitrary tie-breaking oracle; binary-search invariant |
| C11 | same | corollary of C10 |
| C12 | `DefaultInputTextPlugin` | loop invariant: builder text = normalised prefix ++ remaining suffix |
| C13 | `ProlongedSoundMarkInputTextPlugin` | loop invariant; counterexample for long symbol |
| C14 | `Lattice`, `build_lattice_c` | Viterbi optimality by induction on position |
| C15 | same | invariant over insertions |
| C16 | same | connected iff a path exists |
| C17 | `wrap32` costs | bound invariant; equality with exact model |
| C18 | tokenizer state | lattice after clear is observationally fresh |
| C19 | same | negation: concrete witness; recovery: nothing is left beyond the longest text, and clearing that empties all |
| C20 | `resize`/`expand`/`clear` | invariant over all histories |
| C21 | whole pipeline | reachability argument; counterexample; shipped char.def instance |
| C22 | tokenize | direct |
| C23 | MeCab OOV | exact characterisation |
| C24 | Simple OOV | exact characterisation |
| C25 | build_lattice | invariant over insertions |
| C26 | NumericParser | representation invariant, value in ℚ |
| C27 | `__str__` | shape lemma |
| C28 | comma logic | state-machine characterisation; witness for the gap |
| C29 | JoinNumeric | coarsening invariant over the fuelled loop |
| C30 | JoinNumeric | lexicographic measure; divergence witness |
| C31 | JoinKatakana | measure + coarsening invariant |
| C32 | concatenate / concatenate_oov / get_minimum_node | closed forms |
| C33 | split | equality of two model functions |
| C34 | builder split parsing | case analysis |
| C35-C43 | binary format writer and reader | byte-level round trips over `List Nat`; darts-clone trie behind a contract |
| C44 | parse_line | decision logic |
| C45 | id packing | arithmetic |
| C46-C51 | LexiconSet, user dictionary loading | induction over the list of dictionaries; cache invariant |
| C52-C53 | config, CLI `run` | decision logic / list equations |
| C54 | MorphemeList | direct |
| C55 | builder stream writes | negation by witness; every prefix of a dictionary file classified by which reads it allows |
| C56 | LatticeNode | invariant of produced nodes |
| C57 | `build_lattice_c` | invariant over the positions: every offered word is inserted |
| C58 | NumericParser | canonical numerals as fixed points; witness for calling `get_normalized` twice |
| C59 | JoinNumeric `_concat` | partial: false in general (witness); proved without separator words, and for acceptable numbers |
| C60 | JoinNumeric loop | the state after a breaker is the initial state; runs are consumed whole |
| C61-C64 | builders + loader + tokenizer composed | byte-level round trips (C37-C43) instantiate the abstract lexicon of C01-C25; no hypothesis about files is left |
| C65-C67 | char.def, unk.def, rewrite.def as text lines | per-line grammar in `Spec/*`, reader equals it line by line, faults of char.def included |
| C68 | `Settings` to plugins to `Dictionary.__init__` | success characterised as an iff of independent conditions |
| C69 | the shipped resources, embedded as text | C68 + C62 on the concrete files; `C69_from_source` also builds the dictionary; with user dictionaries by C68_users_added and C72 |
| C70 | `decode` of `\u` literals | regular-expression scan as structural recursion; witnesses for 6 and 2 digits |
| C71 | `DictionaryBuilder.build`, `UserDictionaryBuilder.build` | success iff `Writable`, both directions |
| C72 | build + load + tokenize | composition of C71, C43, C50, C62 |
| C73 | `csv.reader` as used by the builder | character-level scanner equal to the line-wise reader; induction over the written form |
| C74 | what is printed of unknown and joined words | invariant on the nodes through plugins and splitting; composed with C53, C62, C68 |
| C75 | `_command_build`, `_command_user_build` and their checks | command = checks, then the builder of C71 on the rows of C73; composed with C68 |
| C76 | `_command_tokenize`, `fileinput`, the logging handler | command = checks, opening (C68), the loop of C53/C77 on the lines of the input, each direction of "ends normally"; encodability of all texts of a dictionary file read as bytes; composed with C69, C74 |
| C77 | the dump of `tokenize -d` | the lines as a function of the lattice; the lattice of a call equal to that of a fresh tokenizer up to unused entries; totality from C62, C74 |
| C78 | `InhibitConnectionPlugin`, `set_connect_cost` | the cells of the edited matrix; paths with the edited costs = old paths that avoid the pairs; composed with C14, C16, C68 |
| C79 | lattice building with the providers of unknown words | the words of a text as a predicate on the sources, the settings and the normalised text; run segmentation is unique; candidates of the lattice = reachable words; then C14, C16 |
| C80 | the lattice functions as Cython before version 3 compiles them | a second model that drops exceptions; agrees with the first whenever that answers; with known connection ids an invariant (room, ids) along every history shows insertion never raises, so the lattices are equal; witnesses outside |
| C81 | the command line: options in any spelling and order | per word: classification (letters, `=`, joined, clusters) and the options it stands for; induction over the words; what `main` calls; for arbitrary words: invariants of the parsing loop (accepted values, a file, the first word) |
| C82 | what the lattice keeps between calls | exact count of the lists after successful calls (sum of record lengths), bound after any; quadratic growth shown on a tokenizer for all lengths |
| C83 | what `tokenize` prints, from the sources alone | compose C79 (cheapest segmentation), relational specs of joining and dividing over `Piece`s that carry what a row says, C76 and C81; `PrintsLine` mentions no lattice, node or word info |
| C84 | which of several cheapest segmentations is the result | `connectLoop` keeps the first cheapest predecessor, so by induction on nodes every node's chain is preferred to all chains of the same cost (`first_reach`); the lists of the lattice are the lists of the positions in order (`buildLoop_order`); the order at one position from C42, C46 and the loops of the providers (`FirstIn`) |
| C85 | results do not depend on the order of a set | false of the code (witness `C85_order_matters`); `SameSets f g`: every character has the same categories in any order; runs, word beginnings and candidates depend on membership only, so by C84 two results are each preferred in its own order, and their last difference must be two unknown words for two categories of one character; with at most one category with entries per character, every function that reads the sets gives the same (Lemmas/SetOrder2), so loading and tokenizing are equal for all modes, plugins and histories |
| C86 | closing a dictionary | process with dictionaries, tokenizers and results, and the LRU cache; the references between the objects as a graph (Spec/Close.lean), alive = reachable; invariant over all sequences of steps; position of a key in the cache |
| C87 | what a call raises | the loop over the positions with the exact set of reached places (`Front`), up to the first character where no node can be made; then the exact exception of that position; `insert` never raises as all ids are known (as in C80) |
| C88 | what opening raises | `OpenRaises`: the steps of `Dictionary.__init__` in order with the exception of each (`Next`); exact for settings with values of the right types (`Typed`); what reading one file raises (`readCharDef`, `readUnk`, `fromUserDictionary`, …) is left to the properties of these readers |
| C89 | what building raises and leaves | `BuildRaises`: the checks of a build in order with the exception of each (`Check`, `Fails`); header, matrix and rows exact for any input, the rest for sources that fit the format (`SourceOk`, `HasRoom`); what a failed build leaves is read with the model of the reader |
| C90 | text files read in pieces | `streamLines`: incremental UTF-8 decoder and newline translation over pieces of 8192 bytes; `BeginsText`, `WholeLines`, `LinesUpTo` speak only of texts whose UTF-8 begins or is the file |
| C91 | what the build commands raise | `buildCmd`/`ubuildCmd` over a disk whose files break off anywhere: the first source, row or file that is wrong decides the exception; nothing else is written |
| C92 | which files are dictionaries | format of the file and of the entries as relations on byte lists (`FileIs`, `EntryAt`) and of what is wrong first (`FileFails`, `EntryFails`); reading agrees with both; words by the chain of dictionary forms |
| C93 | the setting file as written | a grammar of texts and values (`Denotes`, `Document`) apart from the scanner of `json`; the scanner reads exactly its texts; what is refused, by depth; the shipped file by computation |
| C94 | setting files that are no object | a second model of config.py over any JSON value (Model/SettingsValue), read from the bytes of the file; it agrees with Model/Config on objects (`C94_object`, `C94_uses`); the exceptions as a relation (`NoObjectRaises`) |
| C95 | which command lines are accepted | a grammar of lines (`Asked`) beside the parser of `argparse`; both directions: C81's lemmas for the lines of the grammar, and inversion of classification, of the letters of a word and of the parsing loop for the others; the same for lines that print help (`AsksForHelp`) |
| C96 | values of the wrong type in plugin settings | a second model that keeps them (Model/Late), compared with the first: the same or an exception of such a value, step by step through plugins, lattice, path and tokenizer; opening the same unless the first says `TypeError` |
| C97 | the questions a `Range` answers (`contains`, `lower`, `higher`, `match`, `containing_length`) | induction over the text; negation: `containing_length` takes the upper bound for a character of the range |
| C98 | the word-id table and lookups for any bytes, with their exceptions | the entry is specified byte by byte; cases on whether it fits, induction over the ids and over the matches |

A property marked *violated* or *partial* in `properties.jsonl` / `MANIFEST.json` is one the code does not have.  The
negation is proved with a concrete witness, and the part that does hold is proved under the hypothesis that is missing.

## Trusted base

### Logic

* Lean 4.33.0's kernel and core library.  Mathlib is not imported by any module.
* Axioms: every theorem named in `MANIFEST.json` depends on a subset of `propext`, `Classical.choice`, `Quot.sound`
  (checked with `#print axioms` on every one of them; table at the end of this file).  No axioms of our own,
  no `sorry`/`admit`, no `native_decide`, no `bv_decide`.  Witnesses are closed by `decide` (`+kernel` where large),
  which is kernel evaluation.

### What is modelled

Every definition in `Verif/Model` cites the file and lines it models.  By file of /repo/sudachipy:

| code | model | what is left out |
|------|-------|------------------|
| utf8inputtextbuilder.py, utf8inputtext.py | Model/InputText | nothing of substance |
| dictionarylib/charactercategory.py, categorytype.py | Model/Category (compile, query), Model/Ranges (methods of `Range` that only tests use), Model/Definitions (reading) | `CategoryType.get_id`, `get_type` (no caller; both would raise `AttributeError`: there is no attribute `id` and no `values`) |
| lattice.pyx, latticenode.pyx | Model/Lattice, Model/Dump | `Lattice.remove` (no caller) |
| tokenizer.pyx | Model/LatticeBuild, Model/Tokenizer, Model/Dump | a logger that raises |
| morpheme.py, morphemelist.py | Model/Tokenizer | - |
| plugin/input_text/*.py | Model/InputPlugins, Model/Definitions, Model/Open, Model/Late | other classes than those of the package, which the settings cannot name (`ValueError`: C68) |
| plugin/oov/*.py | Model/Oov, Model/Definitions, Model/Open, Model/Late | other classes than those of the package, which the settings cannot name (`ValueError`: C68) |
| plugin/path_rewrite/*.py | Model/Numeric, Model/PathRewrite, Model/Open, Model/Late | other classes than those of the package, which the settings cannot name (`ValueError`: C68) |
| dictionarylib/dictionarybuilder.py, userdictionarybuilder.py | Model/Builder, Model/PyText, Model/Bytes | log messages; `csv.reader` is in Model/Csv |
| dictionarylib/dictionaryheader.py, dictionaryversion.py, binarydictionary.py, grammar.py, doublearraylexicon.py, wordidtable.py, wordparameterlist.py, wordinfolist.py, jtypedbytebuffer.py, wordinfo.py | Model/DictFile, Model/Bytes | see the rows below |
| dictionarylib/lexiconset.py | Model/LexiconSet | - |
| dictionary.py | Model/Dictionary, Model/Open, Model/Close | - |
| config.py | Model/Config, Model/JsonText, Model/SettingsValue | - |
| command_line.py | Model/CommandLine (`run`, modes), Model/Commands (`build`, `ubuild`), Model/TokenizeCommand (`tokenize`), Model/Dump, Model/Arguments (`main`, the default subcommand) | texts of usage, help and error messages |
| plugin/connect_cost/*.py, `Grammar.set_connect_cost` | Model/ConnectCost | never run by the package: the call in dictionary.py is commented out |
| lexicon.py (abstract base) | not modelled | no behaviour |

### What stands in for code outside the repository

* **dartsclone** (double-array trie): a parameter `Darts` with a contract `Darts.Ok` (what was built from a sorted key
  list is found again by common-prefix search, exact match and nothing else).  Examples instantiate it concretely.
* `str.lower` and `unicodedata.normalize('NFKC', .)`: function parameters; where needed they are assumed to give
  non-empty results on non-empty text.
* `csv.reader` (default dialect) is modelled after the state machine of CPython 3.11 (`Modules/_csv.c`).  The model agreed with
  the real module on 600 random texts; the module itself is not part of /repo.
* `fileinput`, `importlib`: their results are the input of the model.  `json.load` is modelled after CPython's C scanner
  (Model/JsonText); the limit of newer versions on the digits of an integer (4300) is not.  Setting files that are no object are in C94; the models that build on Model/Config take the value to be an object.
  The model agreed with the `json` of CPython 3.11 on 3000 random texts, half of them wrong.  Elsewhere the settings are an
  input; `Disk.ReadsSettings` ties them to the files.
* `argparse`: Model/Arguments says what the one of CPython 3.11 does for the four parsers of command_line.py (written after its source; the model
  was evaluated on 10000 random command lines and agreed with that module given the same declarations).
* The file system: a map from paths to contents (`Disk`), POSIX path syntax.  System dictionaries are mapped for
  reading only, user dictionaries as private copies; no other process changes the files meanwhile.
* `re`, `struct`, `int()`, `str.split`, `str.strip`, UTF-8 and UTF-16 coding are modelled (Model/PyText, Model/Bytes)
  for the patterns used.  `int()` knows the decimal digits of Unicode 14 (a table copied from CPython; the spec of C65_digits
  lists the zeros with the names of their scripts) and has no limit on the number of digits.
* The machine is little-endian with 32-bit C `int` and 16-bit `short` (`memoryview.cast('h')`).

### Simplifications

* Recursion limit: `get_word_info` recurses through dictionary-form references; the model takes the depth available and
  raises `recursion` beyond it.
* Fuel: only the `JoinNumericPlugin` loop takes fuel; C30 gives a bound that suffices and proves divergence otherwise.
* `cdef void` functions without an `except` clause (lattice.pyx, `build_lattice_c`) pass exceptions on since Cython 3 and
  print and drop them before.  setup.py asks for no version.  The model passes them on; C80 compares it with a model
  (Model/Quiet.lean) that drops them.
* C `int` conversion of connection ids and costs above 31 bits raises `OverflowError` where the code converts: when an
  unknown word is made, and when a connection cost is read.  Signed overflow of path costs is undefined behaviour in C; it is
  modelled as wrap-around, and the theorems about paths are inside the range where it does not happen (C17).
* `create` (Model/Open) is the tokenizer that `createTokenizer` gives if the matrix has cells; theorems that speak of `create` for any
  dictionary say nothing about dictionaries without cells, for which no tokenizer can be made (C51_cells_needed, C76_no_cells).
* Exception kinds are compared, messages are not.
* `lookup` generators are run eagerly (no caller changes the lexicon between two items).  Model/Generators has them item by item: they
  yield the same items whenever no exception is raised, and raise whenever the eager ones do (C98_items, C98_items_set).  What differs
  is left to a damaged dictionary: the kind of the exception if one dictionary has an id of 2^28 or more before an entry at fault
  (C98_items_differ), and that the code has put the items before the exception into the lattice already.
* The word-info cache is modelled (C48); that callers could modify the shared `WordInfo` objects is not (none does).
* Closing (C86): Python frees an object at once when nothing refers to it (reference counting; the objects form no cycles); references that
  a caller takes out of dictionaries, tokenizers and results, and those of tracebacks, are not followed.
* `LexiconSet.add` compares by identity; the model assumes the lexicon added is a new one, as `Dictionary` does.
* The matrix is read in the locale's encoding, which is a parameter: `decode` for a file that can be decoded, and for one that cannot be
  `headLine`, its first line if `readline` returns it before the bytes at fault are read (C91). The input of `tokenize`, definition files
  and CSV files are UTF-8 and decoded in pieces as they are read: C90, C88, C91, C73_broken.
* Crash points of a build (C55) are between `write` calls; buffering may delay what reaches the disk further.
* Wrongly typed values in plugin settings raise `TypeError` at once in Model/Open. The code keeps them and raises at first use
  (`AttributeError` for the symbol); Model/Late does the same, and C96 compares the two. What a `float` does in a C integer and in a
  comparison is a parameter of Model/Late. Other theorems about plugins that are set up assume settings of the right types (`Typed` in C88).
* `getattr(CategoryType, name)` accepts any attribute of the enum class; the names other than members are the parameter
  `others`.
* Set iteration order (`set` of categories) is an arbitrary order given by a parameter; theorems hold for every order.

### Hypotheses that recur in theorem statements

* `Complete` (matrix n by n without forbidden connections, ids in range, references that end, strings that fit) and
  `PluginsOk` (providers as C21 needs them): necessary, as shown by the `C21_needs_*` and `C72_surface_needed` witnesses.
* `SafeLength`, `(bytes + 1) * 65536 <= 2^31 - 1`: C17 shows a witness beyond it.
* `Lex.Honest` (a word-info request ends) in the abstract theorems; discharged for lexicons read from files in C61-C64 and C72.

## Violations of the intended behaviour found in the code

Each is proved as a theorem or an `example` with a concrete witness.

* Replacing by the empty string at the end of the text, and inserting at the end, break the position map (C04, C05); after that
  a replacement that reaches the end raises `IndexError` with the text already replaced (C05_short_map).
* `get_char_category_types` is incomplete across runs (C09); an empty-category line raises `TypeError` (C10).
* `Range.containing_length` counts the upper bound, which `contains` excludes (C97_upper_bound; the function is used only by a test).
* A prolonged-sound-mark symbol of two or more characters overwrites neighbours (C13).
* The lattice is cleared only on success, so a failed call influences the next ones, until a text as long as the longest before succeeds (C19).
* `MeCabOovPlugin` shortens the length limit by one byte per unk.def entry when grouping, which drops prefixes (C23).
* `1,00万` and the like are accepted (C28); `get_normalized` cannot be called twice (C58).
* `JoinNumericPlugin` loops forever on a number word with normalised form `.5` (C30), and gives joined numbers wrong
  values before separators (C59).
* Joined numeric words have dictionary id -1 without being OOV (C56).
* `LexiconSet.get_word_id` tests `wid <= 0` (C49); ids of dictionaries 8..15 exceed a C int (C45).
* Non-square matrices are transposed wrongly, and a missing last cell shortens the table (C38).
* Strings of 32768..65535 UTF-16 units are misread (C40); parts of speech of 128 units or more, or with a comma, are misread (C37).
* A left id written `-01` is indexed although it means -1 (C42).
* Interrupted builds leave files that load (C55); an empty build omits the parameter count.
* `"userDict": "x.dic"` is read letter by letter (C52); a tab in the text breaks the output fields (C53).
* Indented or `0X` definitions in char.def are ignored silently (C65); an unknown part of speech in unk.def becomes
  -1, the last one (C66); the same for the Simple provider (C68).
* `\u{10FFFF}` decodes to two characters and `\u{41}` raises (C70).
* A blank line in a source makes the build fail, and a quote that is not closed swallows the rest of the file (C73).
* `build -o` with one of its own sources (or the matrix) as the output file empties it before reading it (C75).
* `tokenize` refuses `-`, the usual name of the standard input, unless a file of that name exists (C76_dash); then `fileinput` reads the
  standard input and not the file.
* `tokenize -o p p` empties `p` before reading it: the text is lost, and the command ends normally (C76_own_input).
* `tokenize -d` asks for the parts of speech of all words of the lattice and can raise where `tokenize` prints the result (C77).
* `InhibitConnectionPlugin` reads its pairs from the top of the settings and not from the place its documentation shows (C78_documented),
  cannot work on a system dictionary, which is mapped for reading only (C78_system), and is never run (C78_unused).
* Compiled with Cython before version 3, words with connection ids outside of the matrix are passed over silently (C80_differs).
* `Lattice.expand` extends from `size`, which is 0 between calls, and not from `capacity`: texts that get longer one byte at a time up to n
  bytes leave 1 + n(n+1)/2 lists (C82_unbounded).
* A word equal to `tokenize`, `build` or `ubuild` anywhere (a text file, or the argument of `-o`) stops `tokenize` from being the default: the program
  ends with code 2 (C81_nothing_runs).  Files before and after an option are refused (C81_split_files).
* Of two unknown words at the same cost for two categories of a character, the one that is chosen depends on the order of a Python set of `Enum` members,
  which hash by their names, and so on `PYTHONHASHSEED` (mecab_oov_plugin.py:66; C85_order_matters).
* The cache of `get_word_info` belongs to the function and refers to every `LexiconSet` it has words of: a dictionary that has been used raises
  `BufferError` in `close` although its tokenizers and results are gone, and after that can neither be closed nor used (C86_violated, C86_once).
* A build that fails at a parameter or a word info leaves a file that loads without error; after a failing word info it has all words and
  parameters, and all words have the same garbage word info (C89_left, C89_garbage).
* A setting file that is no object makes `set_up` raise, but the settings count as set up afterwards: the default file is not read any more, and
  for a list or a text `user_dict_paths` is empty without an exception (C94_after).
* A user word with automatic cost and empty surface makes loading raise `IndexError` (C72).

## Testing the theorems

`seeded/LOG.jsonl` records edits of the model as realistic bugs would make them, the theorems that failed, and, where a
theorem survived, how it was tightened.

## Testing the model

The code cannot be run here, but its unit tests (`/repo/tests`) say what it does on particular inputs.  `Verif/Replay/*.lean` runs them on the
model: `tests/resources` is embedded as text, `system.dic` and `user.dic` are built by the model of the commands as `scripts/test.sh` does, and
every assertion of the 17 test files is a `#guard`, evaluated when the module is built (about 520 of them).  None failed, so no change of the
model came out of it.  These are checks of the model against the repository, not proofs; no theorem depends on them.  Left out or changed:

* `get_bos_parameter`/`get_eos_parameter` (constants), the texts of exceptions.
* `test_large_userdict.py` runs on the first words of the dictionary; the cache it is about is C48.
* Tests with a mocked input text or lexicon use a value of the model's type with the same answers.
* `str.lower` and NFKC are small tables for the characters that occur; the trie is `SimpleTrie` (the tests' expectations do not depend on its bytes).

## Axioms

`#print axioms` on the 446 theorems of `MANIFEST.json` (commit of this table): 338 depend on `propext`,
`Classical.choice` and `Quot.sound`; 82 on `propext` and `Quot.sound`; 25 on `propext` alone; 1 on none.  Nothing else occurs.
