{"id": "C01", "title": "Mode-C morphemes partition the text", "statement": "If tokenize(text) in mode C returns, then the surfaces of the returned morphemes concatenate to exactly the original text, the first begins at 0, the last ends at len(text), and every morpheme begins where the previous one ended - whatever the input plugins rewrote and whatever the path-rewrite plugins joined. So str() of the list of morphemes is the text.", "quantifier": "every text, every dictionary and cost matrix, every OOV configuration, every input-text and path-rewrite plugin configuration", "why_tests_cant": "The claim ranges over all texts x all dictionaries x all rewrite tables; the failure needs a particular interaction of a length-changing replacement with a word boundary.", "anchors": ["sudachipy/tokenizer.pyx: Tokenizer.tokenize", "sudachipy/morphemelist.py: get_begin, get_end, get_surface", "sudachipy/utf8inputtextbuilder.py: replace, build", "sudachipy/lattice.pyx: get_best_path"]}
{"id": "C02", "title": "Mode-A and mode-B morphemes partition the text", "statement": "tokenize(text, A) and tokenize(text, B) also partition the original text, provided every split entry of the dictionary is consistent (the head-word byte lengths of the units add up to that of the word). Without that (unchecked) consistency the claim is false.", "quantifier": "every text, every dictionary, both short modes", "why_tests_cant": "Depends on every dictionary entry's split columns, which the builder never validates; tests only use consistent entries.", "anchors": ["sudachipy/tokenizer.pyx: Tokenizer._split_path", "sudachipy/morphemelist.py: split", "sudachipy/dictionarylib/dictionarybuilder.py: parse_splitinfo"]}
{"id": "C03", "title": "Morpheme offsets are ordered and inside the text", "statement": "For every morpheme of a returned list 0 <= begin() <= end() <= len(text), and surface() is text[begin():end()].", "quantifier": "every text, dictionary and plugin configuration; every index of the list", "why_tests_cant": "Offsets come from a position map edited by an unbounded sequence of replacements.", "anchors": ["sudachipy/morphemelist.py: get_begin, get_end, get_surface", "sudachipy/utf8inputtextbuilder.py: modified_to_original", "sudachipy/utf8inputtext.py: get_original_index"]}
{"id": "C04", "title": "A replacement splices the text and its position map", "statement": "builder.replace(b, e, s) with b < e, non-empty s makes the text text[:b]+s+text[e:] and maps positions so that kept characters keep their original index, the first character of s maps to where position b mapped and every further character of s maps to where position e mapped; the map always has one more entry than the text, stays non-decreasing, starts at 0 and ends at the original length, after any sequence of replacements.", "quantifier": "every builder state reachable by any sequence of valid replacements; every b, e, s", "why_tests_cant": "An in-place edited index table under an arbitrary edit history cannot be sampled exhaustively.", "anchors": ["sudachipy/utf8inputtextbuilder.py: replace"]}
{"id": "C05", "title": "An invalid replacement is refused and changes nothing", "statement": "builder.replace raises IndexError for b < 0, b > len, or b > e, AttributeError for b == e, and in those cases text and position map are unchanged; an end past the text is clipped to its length. Arguments that are not refused put the new text in place; if the position map has no entry for the clipped end (as an insertion at the end of the text leaves it), IndexError follows, with the text already replaced and the map as it was.", "quantifier": "every builder state, every pair of integers b, e and every string", "why_tests_cant": "Universal over integer arguments including negative ones.", "anchors": ["sudachipy/utf8inputtextbuilder.py: replace"]}
{"id": "C06", "title": "Byte offsets and character indices correspond", "statement": "After build(), every byte of the UTF-8 text maps to the index of the character it encodes and to the original position of that character; the end position maps to the character count and to the end of the map; a substring between two character boundaries is exactly the characters between them.", "quantifier": "every text (every mix of 1-4 byte characters) and every byte offset", "why_tests_cant": "All mixtures of encoded lengths and all offsets.", "anchors": ["sudachipy/utf8inputtextbuilder.py: build, utf8_byte_length", "sudachipy/utf8inputtext.py: get_substring, get_offset_text_length, get_original_index, code_point_count"]}
{"id": "C07", "title": "Byte lengths measured in characters are exact", "statement": "get_code_points_offset_length(i, n) at a character boundary is the number of bytes of the next n characters, or of all that remain when fewer are left; code_point_count(b, e) between boundaries is the number of characters.", "quantifier": "every text, every boundary, every n", "why_tests_cant": "Needs every combination of widths and counts, including running off the end.", "anchors": ["sudachipy/utf8inputtext.py: get_code_points_offset_length, code_point_count"]}
{"id": "C08", "title": "Where a word may begin", "statement": "can_bow(i) is true exactly when byte i starts a character and that character is the first one, or is not alphabetic (ALPHA, GREEK, CYRILLIC), or shares no category with its predecessor; get_word_candidate_length(i) is the distance to the next such byte or to the end.", "quantifier": "every text, every category assignment, every byte offset", "why_tests_cant": "Quantifies over all category assignments and neighbours.", "anchors": ["sudachipy/utf8inputtextbuilder.py: _build_can_bow_list", "sudachipy/utf8inputtext.py: can_bow, get_word_candidate_length"]}
{"id": "C09", "title": "Category runs and common categories", "statement": "get_char_category_continuous_length(i) counts down to the end of the greedy run of characters sharing a category; get_char_category_types(b, e) is either empty or exactly the categories common to all characters of the span, and it is exact whenever the span does not cross a run end. (It can be empty although a common category exists.)", "quantifier": "every text, every category assignment, every span between boundaries", "why_tests_cant": "Runs are greedy from the left, so the answer for a span depends on arbitrary preceding text.", "anchors": ["sudachipy/utf8inputtextbuilder.py: get_char_category_continuities, get_char_category_continuous_length", "sudachipy/utf8inputtext.py: get_char_category_types, get_char_category_continuous_length"]}
{"id": "C10", "title": "A code point's categories are the union of all its definitions", "statement": "After reading char.def, get_category_types(cp) is the union of the categories of every definition range containing cp, and {DEFAULT} when no range contains it.", "quantifier": "every list of definition ranges (any overlap, nesting, duplicates, shared ends), every code point, every tie-breaking order of the priority queue", "why_tests_cant": "The sweep-line compile plus binary search must be right for every overlap pattern; tie order in the heap is unspecified.", "anchors": ["sudachipy/dictionarylib/charactercategory.py: _compile, get_category_types, read_character_definition"]}
{"id": "C11", "title": "char.def line order is irrelevant", "statement": "Two char.def files with the same definition lines in different order give every code point the same categories.", "quantifier": "every permutation of every list of definition lines, every code point", "why_tests_cant": "All permutations of all definition lists.", "anchors": ["sudachipy/dictionarylib/charactercategory.py: _compile"]}
{"id": "C12", "title": "Default normalisation is leftmost longest-match", "statement": "DefaultInputTextPlugin rewrites the text to: at each position the longest rewrite.def key starting there is replaced by its value; otherwise the lower-cased character is kept as is when it is on the ignore list, and NFKC-normalised otherwise. It never raises on a valid builder and the builder stays valid.", "quantifier": "every text, every rewrite.def table, every lower-casing / NFKC function", "why_tests_cant": "Running offset bookkeeping under replacements of every length change.", "anchors": ["sudachipy/plugin/input_text/default_input_text_plugin.py: rewrite, read_rewrite_lists"]}
{"id": "C13", "title": "Prolonged sound marks collapse", "statement": "ProlongedSoundMarkInputTextPlugin with a one-character symbol replaces every maximal run of two or more marks by the symbol and changes nothing else. (With a longer symbol the positions drift and other characters are overwritten.)", "quantifier": "every text, every mark set", "why_tests_cant": "All run patterns including runs at both ends.", "anchors": ["sudachipy/plugin/input_text/prolongedsoundmark.py: rewrite"]}
{"id": "C14", "title": "The returned path is a cheapest path", "statement": "The path chosen by the lattice has minimal total cost (word costs plus connection costs, beginning to end of sentence) among all sequences of candidates that tile the text with no inhibited connection.", "quantifier": "every text, every candidate set, every cost matrix within the 32-bit-safe range", "why_tests_cant": "Exponentially many alternative paths per input.", "anchors": ["sudachipy/lattice.pyx: insert, connect_node, get_best_path", "sudachipy/tokenizer.pyx: build_lattice_c"]}
{"id": "C15", "title": "Every path node is a real candidate and connections are allowed", "statement": "Every node on the chosen path is either a dictionary word whose headword bytes are exactly the bytes of its span, or an OOV candidate offered at that position; nodes tile the text and no two neighbours (including sentence begin and end) have inhibited connection cost 0x7fff.", "quantifier": "every text, lexicon, OOV provider and matrix", "why_tests_cant": "Universal over dictionaries and inputs.", "anchors": ["sudachipy/tokenizer.pyx: build_lattice_c", "sudachipy/lattice.pyx: connect_node, get_best_path"]}
{"id": "C16", "title": "Failure exactly when there is no path", "statement": "The lattice reports 'EOS is not connected to BOS' exactly when no sequence of inserted candidates tiles the text without an inhibited connection.", "quantifier": "every candidate set and cost matrix", "why_tests_cant": "A negative existential over all paths.", "anchors": ["sudachipy/lattice.pyx: connect_node, get_best_path"]}
{"id": "C17", "title": "32-bit path costs do not overflow within the safe range", "statement": "If word and connection costs are 16-bit and (number of bytes + 1) * 65536 <= 2^31 - 1, the C-int arithmetic gives the same chosen path as exact integers. Beyond the range the claim fails.", "quantifier": "every text length within the bound, every cost assignment", "why_tests_cant": "Overflow needs very long texts with extreme costs.", "anchors": ["sudachipy/lattice.pxd: INT_MAX", "sudachipy/lattice.pyx: connect_node", "sudachipy/latticenode.pxd: total_cost"]}
{"id": "C18", "title": "A tokenizer is stateless across successful calls", "statement": "The result of tokenize(text) on a tokenizer that has successfully tokenized any sequence of other texts equals the result on a fresh tokenizer.", "quantifier": "every history of successful calls, every next text", "why_tests_cant": "All histories of varying lengths that grow and reuse the lattice.", "anchors": ["sudachipy/lattice.pyx: resize, clear, expand", "sudachipy/tokenizer.pyx: Tokenizer.tokenize"]}
{"id": "C19", "title": "A failed call must not influence the next one (violated)", "statement": "After a tokenize call that raised, the next tokenize call should return what a fresh tokenizer returns. The code violates this: the lattice is cleared only on success, so nodes of the failed text can appear in the next result. What holds: the tokenizer is as good as new after the first successful call on a text at least as long as all texts before it.", "quantifier": "every history containing failed calls", "why_tests_cant": "The violation needs a failing call followed by a specific second text on the same object.", "anchors": ["sudachipy/tokenizer.pyx: Tokenizer.tokenize", "sudachipy/lattice.pyx: clear, resize"]}
{"id": "C20", "title": "The lattice is large enough for every history", "statement": "In every history of calls (successful or not), every position 0..n of the current text is a valid index of the lattice's end lists, so growing and shrinking texts never index out of range.", "quantifier": "every sequence of text lengths, with or without failures", "why_tests_cant": "capacity/size bookkeeping over all histories.", "anchors": ["sudachipy/lattice.pyx: resize, expand, clear"]}
{"id": "C21", "title": "Tokenization of non-empty text succeeds", "statement": "With the Simple OOV provider last, no inhibited connections, alphabetic characters carrying a single category (as in the shipped char.def) and alphabetic OOV length 0, tokenize succeeds on every non-empty encodable text. Dropping the single-category condition makes it false.", "quantifier": "every non-empty text, every lexicon, every cost matrix without inhibited pairs", "why_tests_cant": "A dead end needs a specific mix of category sets, word boundaries and vocabulary.", "anchors": ["sudachipy/tokenizer.pyx: build_lattice_c", "sudachipy/plugin/oov/simple_oov_plugin.py: provide_oov", "sudachipy/plugin/oov/mecab_oov_plugin.py: provide_oov"]}
{"id": "C22", "title": "Empty text gives an empty list", "statement": "tokenize('') returns an empty morpheme list without touching the lattice, in every tokenizer state and mode.", "quantifier": "every tokenizer state, every mode", "why_tests_cant": "All states.", "anchors": ["sudachipy/tokenizer.pyx: Tokenizer.tokenize", "sudachipy/morphemelist.py: empty"]}
{"id": "C23", "title": "MeCab OOV candidates", "statement": "For each configured category of the character at the position (unless it is non-invoking and dictionary words exist) the provider offers, per unk.def entry, the whole category run if grouping, and the prefixes of 1..length characters whose byte length does not exceed run length minus the number of unk.def entries (if grouping) - which is fewer than char.def documents when a grouped category has more than one unk.def entry. The provider raises only an OverflowError, exactly if an id or the cost of a candidate is no C int.", "quantifier": "every text, offset, category table and unk.def table", "why_tests_cant": "All combinations of flags, lengths and entry counts.", "anchors": ["sudachipy/plugin/oov/mecab_oov_plugin.py: provide_oov, get_oov_node"]}
{"id": "C24", "title": "Simple OOV fallback", "statement": "The Simple provider offers nothing when other words exist and otherwise exactly one candidate from the position to the next possible word beginning (or the end), whose surface is that text; an OverflowError instead if an id or the cost is no C int.", "quantifier": "every text, offset and flag", "why_tests_cant": "All texts and offsets.", "anchors": ["sudachipy/plugin/oov/simple_oov_plugin.py: provide_oov", "sudachipy/plugin/oov/oov_provider_plugin.py: get_oov"]}
{"id": "C25", "title": "No unknown word starts at a NOOOVBOW character unless unavoidable", "statement": "At a position whose character has category NOOOVBOW, OOV candidates are inserted only if no dictionary word starts there, and then only those of the last provider.", "quantifier": "every text, lexicon and provider list", "why_tests_cant": "Universal over configurations.", "anchors": ["sudachipy/tokenizer.pyx: build_lattice_c"]}
{"id": "C26", "title": "Number normalisation preserves the value", "statement": "Whenever the numeric parser accepts a string, the normalised form is a decimal numeral whose exact value equals the number the string denotes in positional / kanji-unit notation (commas ignored).", "quantifier": "every accepted character sequence of any length", "why_tests_cant": "Unbounded digit strings with scales, points and units.", "anchors": ["sudachipy/plugin/path_rewrite/numericparser.py: NumericParser, StringNumber"]}
{"id": "C27", "title": "Normalised numbers have canonical shape", "statement": "An accepted number's normalised form is non-empty, contains only ASCII digits and at most one point, never starts or ends with the point and has no trailing zero after a point.", "quantifier": "every accepted character sequence", "why_tests_cant": "Unbounded inputs.", "anchors": ["sudachipy/plugin/path_rewrite/numericparser.py: StringNumber.__str__"]}
{"id": "C28", "title": "Comma grouping", "statement": "In an accepted number made only of digits and commas, the first group has 1-3 digits that are not all zero and every later group exactly 3 digits, and conversely. With units or points in the string the rule is not enforced (e.g. '1,00' followed by a unit is accepted).", "quantifier": "every sequence of digits and commas", "why_tests_cant": "Unbounded inputs.", "anchors": ["sudachipy/plugin/path_rewrite/numericparser.py: append, done, check_comma"]}
{"id": "C29", "title": "Numeric joining only coarsens the path", "statement": "JoinNumericPlugin.rewrite replaces consecutive blocks of path nodes by single nodes spanning exactly those blocks and leaves all other nodes unchanged and in order.", "quantifier": "every path, text and configuration for which it returns", "why_tests_cant": "Index rewinding over mutated lists for all inputs.", "anchors": ["sudachipy/plugin/path_rewrite/join_numeric_plugin.py: rewrite, _concat", "sudachipy/plugin/path_rewrite/path_rewrite_plugin.py: concatenate"]}
{"id": "C30", "title": "Numeric joining terminates (for sane dictionaries)", "statement": "JoinNumericPlugin.rewrite terminates whenever no node whose characters are all NUMERIC or KANJINUMERIC has a normalised form containing ',' or '.'; otherwise it may loop forever (e.g. a numeric word with normalised form '.5').", "quantifier": "every path and configuration", "why_tests_cant": "Non-termination cannot be tested, and the loop restarts after rewinding.", "anchors": ["sudachipy/plugin/path_rewrite/join_numeric_plugin.py: rewrite"]}
{"id": "C31", "title": "Katakana joining only coarsens the path and terminates", "statement": "JoinKatakanaOovPlugin.rewrite terminates on every path, replaces consecutive blocks of all-katakana nodes by one node spanning the block, leaves all other nodes unchanged and in order; blocks have at least two nodes and start at a node that may begin an unknown word.", "quantifier": "every path, text, minimum length and lattice", "why_tests_cant": "Backward/forward scanning over a list mutated in place.", "anchors": ["sudachipy/plugin/path_rewrite/join_katakana_oov_plugin.py: rewrite", "sudachipy/plugin/path_rewrite/path_rewrite_plugin.py: concatenate_oov"]}
{"id": "C32", "title": "Joined nodes carry the concatenated fields", "statement": "A node made by joining nodes i..j-1 spans from the begin of node i to the end of node j-1; its surface, dictionary form, reading and head-word length are the concatenation / sum of those of its parts, its normalised form is the given one or the concatenation; its part of speech is that of the first node (numeric) or the configured one (katakana, which is marked OOV and has empty reading) unless the lattice already has a node for the span, then that cheapest node is used.", "quantifier": "every path and index pair", "why_tests_cant": "Universal over paths.", "anchors": ["sudachipy/plugin/path_rewrite/path_rewrite_plugin.py: concatenate, concatenate_oov", "sudachipy/lattice.pyx: get_minimum_node"]}
{"id": "C33", "title": "Splitting a morpheme agrees with tokenizing in that mode", "statement": "tokenize(text, M) yields the same morphemes as tokenizing in mode C and splitting each morpheme with split(M), for M in A, B, C.", "quantifier": "every text, dictionary and mode", "why_tests_cant": "Two separate implementations of splitting must agree on all inputs.", "anchors": ["sudachipy/tokenizer.pyx: _split_path", "sudachipy/morphemelist.py: split", "sudachipy/morpheme.py: split"]}
{"id": "C34", "title": "Split references always resolve", "statement": "In every dictionary the builder accepts, each A/B/structure unit id refers to an existing word: of the same dictionary, or (user dictionaries) of the system dictionary or the user dictionary itself.", "quantifier": "every list of CSV rows accepted", "why_tests_cant": "All reference graphs incl. forward references and inline word references.", "anchors": ["sudachipy/dictionarylib/dictionarybuilder.py: parse_splitinfo, parse_id, word_to_id, check_wordid", "sudachipy/dictionarylib/userdictionarybuilder.py: get_wordid, check_wordid"]}
{"id": "C35", "title": "Header round trip", "statement": "Reading the bytes of a written header gives back version, creation time and description, and the header is always 272 bytes, for every description of at most 256 UTF-8 bytes without NUL; longer ones are refused. (A NUL truncates the description.)", "quantifier": "every version, time and description", "why_tests_cant": "All byte strings at the size boundary.", "anchors": ["sudachipy/dictionarylib/dictionaryheader.py: to_bytes, from_bytes"]}
{"id": "C36", "title": "Only dictionaries of the right kind are opened", "statement": "A file whose version is not one of the five known ones is refused; the system loader accepts exactly the two system versions and the user loader exactly the three user versions; system and user versions are disjoint.", "quantifier": "every 64-bit version", "why_tests_cant": "2^64 values.", "anchors": ["sudachipy/dictionarylib/dictionaryversion.py", "sudachipy/dictionarylib/binarydictionary.py: from_system_dictionary, from_user_dictionary"]}
{"id": "C37", "title": "Part-of-speech table round trip", "statement": "A written part-of-speech table is read back identically if every component is shorter than 128 UTF-16 units, contains no comma and does not start with a byte-order mark; components of 128 or more units are misread. A component with any first character reads as itself, unless it is U+FEFF, which is dropped, or U+FFFE, which is dropped and makes the bytes of all later UTF-16 units change places, so that it reads as something else or raises UnicodeDecodeError.", "quantifier": "every table", "why_tests_cant": "Variable-length records of unbounded count.", "anchors": ["sudachipy/dictionarylib/dictionarybuilder.py: convert_postable, write_string", "sudachipy/dictionarylib/grammar.py: Grammar.__init__, bytes_get_string"]}
{"id": "C38", "title": "Connection matrix round trip", "statement": "For a square matrix whose last cell is listed, get_connect_cost(l, r) of the loaded grammar is the cost of the last line 'l r cost' of matrix.def, or 0 if none. For a non-square matrix with n left and p right ids the pair l r is read iff r < n and l < p, and then from the place r*p+l although cell l' r' was written at l'+n*r', so only cells with right id 0 are right; a missing last cell shortens the table. Compiling matrix.def raises exactly for a header or a line of a wrong form, a cell whose place lies before the beginning of the table (ValueError), or a size or cost that is no short (OverflowError), with the exception of the first such line. Reading a grammar takes a matrix with a size of zero as empty even if the other size is negative, positive sizes with the cells that follow, a TypeError if the file ends before them; negative sizes are a TypeError if the bytes taken for the matrix are none or odd, otherwise a ValueError.", "quantifier": "every matrix definition, every pair of ids", "why_tests_cant": "All shapes and sparse patterns.", "anchors": ["sudachipy/dictionarylib/dictionarybuilder.py: convert_matrix", "sudachipy/dictionarylib/grammar.py: get_connect_cost"]}
{"id": "C39", "title": "Word parameters round trip", "statement": "The loaded left id, right id and cost of word w are those of row w; set_cost changes the cost of that word only.", "quantifier": "every list of 16-bit triples, every word id", "why_tests_cant": "All sizes and ids.", "anchors": ["sudachipy/dictionarylib/dictionarybuilder.py: write_lexicon", "sudachipy/dictionarylib/wordparameterlist.py"]}
{"id": "C40", "title": "Word info round trip", "statement": "For every row the loaded word info has the same surface, head-word length, part-of-speech id, normalised form, reading, split lists and synonym ids (an empty normalised form or reading reads back as the surface), as long as strings have at most 32767 UTF-16 units; the builder's own limit counts code points, so longer strings are accepted and corrupted.", "quantifier": "every row", "why_tests_cant": "Variable-length fields at all boundaries (127/128/32767 units, surrogate pairs).", "anchors": ["sudachipy/dictionarylib/dictionarybuilder.py: write_wordinfo, write_string, write_stringlength, write_intarray", "sudachipy/dictionarylib/wordinfolist.py: get_word_info"]}
{"id": "C41", "title": "Dictionary form resolution", "statement": "dictionary_form is the surface of the word referenced by the dictionary-form id, or the word's own surface if there is none or it refers to itself; a cyclic reference never produces an answer.", "quantifier": "every reference graph", "why_tests_cant": "Recursion over arbitrary graphs; divergence cannot be tested.", "anchors": ["sudachipy/dictionarylib/wordinfolist.py: get_word_info"]}
{"id": "C42", "title": "Lookup finds exactly the words whose headword is a prefix", "statement": "lookup(text, offset) on a built lexicon yields exactly the pairs (id, end) such that word id's headword is text[offset:end]; words with left id -1 are never found.", "quantifier": "every list of rows, every text and offset (given the trie library's contract)", "why_tests_cant": "All dictionaries and texts.", "anchors": ["sudachipy/dictionarylib/doublearraylexicon.py: lookup", "sudachipy/dictionarylib/wordidtable.py: get", "sudachipy/dictionarylib/dictionarybuilder.py: add_to_trie, write_lexicon"]}
{"id": "C43", "title": "Built dictionaries load back", "statement": "Loading the file written for a set of rows yields header, part-of-speech table, matrix, parameters, word infos and lookup of those rows; the sections never overlap.", "quantifier": "every accepted set of rows (given the trie library's contract)", "why_tests_cant": "Absolute offsets, seeks and gaps over all sizes.", "anchors": ["sudachipy/dictionarylib/dictionarybuilder.py: build, write_grammar, write_lexicon, write_wordinfo", "sudachipy/dictionarylib/binarydictionary.py: _read_dictionary"]}
{"id": "C44", "title": "Malformed rows are refused", "statement": "parse_line refuses a row with fewer than 18 columns, an empty or over-long headword, over-long strings, non-numeric parameters, over 127 units, or an A-unit row with splits, and otherwise produces an entry with exactly the row's fields.", "quantifier": "every row", "why_tests_cant": "All rows.", "anchors": ["sudachipy/dictionarylib/dictionarybuilder.py: parse_line, check_splitinfo_format, parse_synonym_group_ids"]}
{"id": "C45", "title": "Word ids of several dictionaries do not collide", "statement": "An id built from dictionary d and word w decodes to d and w for w < 2^28; ids of different (d, w) differ. Ids of dictionaries 8..15 exceed a C int, although 16 dictionaries are allowed.", "quantifier": "every d <= 15 and w < 2^28", "why_tests_cant": "2^32 ids.", "anchors": ["sudachipy/dictionarylib/lexiconset.py: build_word_id, get_dictionary_id, get_word_id1", "sudachipy/latticenode.pxd: word_id"]}
{"id": "C46", "title": "Combined lookup", "statement": "With several dictionaries, lookup yields the matches of every dictionary, user dictionaries first in order and the system dictionary last, each with an id that resolves to its own dictionary's word. An id of no dictionary raises IndexError; a negative id counts from the end of the ids.", "quantifier": "every number and content of dictionaries, every text and offset", "why_tests_cant": "All combinations.", "anchors": ["sudachipy/dictionarylib/lexiconset.py: lookup, __lookup", "sudachipy/dictionarylib/lexiconset.py: get_left_id, get_right_id, get_cost, get_word_info"]}
{"id": "C47", "title": "User part-of-speech ids resolve correctly", "statement": "For a word of the k-th loaded user dictionary built against the system dictionary, part_of_speech() is the part of speech written in its CSV row, no matter how many other user dictionaries with own parts of speech were loaded.", "quantifier": "every sequence of user dictionaries", "why_tests_cant": "All load orders and table sizes.", "anchors": ["sudachipy/dictionarylib/lexiconset.py: get_word_info, add", "sudachipy/dictionary.py: _read_user_dictionary", "sudachipy/dictionarylib/userdictionarybuilder.py: get_posid", "sudachipy/dictionarylib/grammar.py: add_pos_list"]}
{"id": "C48", "title": "The word-info cache is transparent", "statement": "Whatever sequence of word-info requests and dictionary additions happened before, a word-info request returns what an uncached computation on the current dictionaries returns.", "quantifier": "every history of lookups and additions, every eviction pattern", "why_tests_cant": "All cache histories.", "anchors": ["sudachipy/dictionarylib/lexiconset.py: get_word_info (lru_cache)"]}
{"id": "C49", "title": "get_word_id over several dictionaries (violated)", "statement": "LexiconSet.get_word_id should return the id of a word that exists in one of the dictionaries. The code tests 'wid <= 0' instead of '>= 0': with two dictionaries, a word that only the system dictionary has (with positive id) is reported as -1. What holds: an answer other than -1 is the id of a word with that head word, part of speech and reading.", "quantifier": "every set of dictionaries and word", "why_tests_cant": "Needs id/dictionary combinations.", "anchors": ["sudachipy/dictionarylib/lexiconset.py: get_word_id"]}
{"id": "C50", "title": "Automatic cost of user words", "statement": "Loading a user dictionary replaces exactly the costs equal to -32768 by a value within the 16-bit range, leaving all other parameters unchanged; the value is (last word cost - first word cost) - 20 * number of morphemes of the surface, clamped. A user dictionary with such costs is refused exactly if the cost of one of its rows cannot be computed, with the exception of the first such row: RecursionError if its dictionary forms go on too long, the exception of the tokenizer if its surface cannot be tokenized, IndexError if the surface is tokenized to nothing (an empty surface).", "quantifier": "every user lexicon and tokenization result", "why_tests_cant": "All costs incl. clamping.", "anchors": ["sudachipy/dictionarylib/doublearraylexicon.py: calculate_cost", "sudachipy/morphemelist.py: get_internal_cost"]}
{"id": "C51", "title": "At most 15 user dictionaries", "statement": "Loading a 16th user dictionary is refused; the first 15 are accepted and get dictionary ids 1..15 in order. To a system dictionary whose matrix has no cells no user dictionary can be added: ValueError.", "quantifier": "every list of user dictionaries", "why_tests_cant": "All lengths.", "anchors": ["sudachipy/dictionary.py: _read_user_dictionary", "sudachipy/dictionarylib/lexiconset.py: is_full, add"]}
{"id": "C52", "title": "dict_type overrides the configured dictionary", "statement": "Settings: a valid dict_type determines the system dictionary whatever the setting file says; an invalid one is refused; with none given a non-empty configured path is used, else the core package; relative paths are resolved against the resource directory and absolute ones kept. `key in settings` holds of the keys of the setting file and of systemDict; settings that were never read refuse all accesses but settings[key].", "quantifier": "every setting file content and argument combination", "why_tests_cant": "All combinations.", "anchors": ["sudachipy/config.py: _Settings.set_up, to_absolute_resource_path, user_dict_paths"]}
{"id": "C53", "title": "Command line output framing", "statement": "For every input line the tokenize command prints one line per morpheme with tab-separated surface, part of speech and normalised form (plus further fields with -a) followed by exactly one EOS line.", "quantifier": "every list of lines and tokenization results", "why_tests_cant": "All inputs.", "anchors": ["sudachipy/command_line.py: run"]}
{"id": "C54", "title": "Morpheme list indexing", "statement": "ms[i] is defined exactly for -len <= i < len; ms[i] for negative i is ms[len+i]; iteration yields ms[0..len-1] in order.", "quantifier": "every list and integer index", "why_tests_cant": "All integers.", "anchors": ["sudachipy/morphemelist.py: __getitem__, __iter__, __len__"]}
{"id": "C55", "title": "Interrupted builds are detectable (violated)", "statement": "If a build is interrupted at any point the partial file should not load as a dictionary that silently answers differently. The code violates this: header, tables and parameters are written before the word-info offsets, so a file cut before the last write loads and returns garbage word infos. For every point of every build it is determined whether the file left loads.", "quantifier": "every crash point between write calls", "why_tests_cant": "Crash points.", "anchors": ["sudachipy/dictionarylib/dictionarybuilder.py: write_wordinfo", "sudachipy/command_line.py: _command_build"]}
{"id": "C56", "title": "OOV flag and dictionary id", "statement": "Every morpheme reported as OOV has dictionary id -1; a morpheme with dictionary id >= 0 is never OOV and its word info is that of its word id. (The converse fails: joined numbers have id -1 but are not OOV.)", "quantifier": "every tokenization result", "why_tests_cant": "All results.", "anchors": ["sudachipy/latticenode.pyx: get_dictionary_id, is_oov", "sudachipy/morpheme.py: is_oov, dictionary_id"]}
{"id": "C57", "title": "No candidate is overlooked", "statement": "At every possible word beginning where some candidate (or the sentence begin) ends, every dictionary word found there whose end is the text end or a possible word beginning is a candidate of the lattice, and (without NOOOVBOW) so is every unknown word the first provider offers when told whether dictionary words exist; candidates start nowhere else.", "quantifier": "every text, dictionary, connection table, provider list", "why_tests_cant": "A missed candidate only shows as a worse path on particular dictionaries.", "anchors": ["sudachipy/tokenizer.pyx:43-72"]}
{"id": "C58", "title": "Number normalisation is idempotent", "statement": "Every canonical numeral, in particular every normalised form, is accepted by a fresh parser and normalises to itself. (Calling get_normalized twice on the same parser is not safe: '1.5' becomes malformed the second time.)", "quantifier": "every accepted character sequence", "why_tests_cant": "Normalised forms of arbitrary length are fed back.", "anchors": ["sudachipy/plugin/path_rewrite/numericparser.py: append, done, get_normalized, StringNumber.__str__"]}
{"id": "C59", "title": "Numeric joining preserves the value", "statement": "With normalisation enabled, the normalised form of a joined numeric word is a plain decimal numeral of exactly the value that its parts, read as Japanese number notation, denote. (False as it stands: before a separator word the parser is asked for a value without checking that the digits form an acceptable number, so '1十25.' becomes a word with normalised form '0'. True for paths without separator words, and in general whenever the parts form an acceptable number.)", "quantifier": "every path, text and configuration for which the plugin returns", "why_tests_cant": "The faulty case needs an unacceptable number before a separator; the value claim ranges over all digit strings.", "anchors": ["sudachipy/plugin/path_rewrite/join_numeric_plugin.py: rewrite, _concat", "sudachipy/plugin/path_rewrite/numericparser.py: get_normalized"]}
{"id": "C60", "title": "Numeric joining is local and complete on runs", "statement": "A word that is neither a number word nor a separator cuts the path: what is before and after it is rewritten independently. A run of number words and separators between two such words (or at the path's end) that the number parser accepts as a whole, whose first word has the numeric part of speech, and which has at least two words (or whose normalised form changes) becomes exactly one node.", "quantifier": "every path, text, dictionary and configuration", "why_tests_cant": "The scan rewinds and carries parser state; that no state leaks across words of arbitrary paths cannot be sampled.", "anchors": ["sudachipy/plugin/path_rewrite/join_numeric_plugin.py: rewrite, _concat"]}
{"id": "C61", "title": "Partition, from the dictionary sources", "statement": "For every installation - a system dictionary and any number of user dictionaries, built from their CSV sources with the builders and loaded together - every successful tokenization, after any calls before, partitions the text: in mode C whatever the sources say, in modes A and B if the headwords of the units of each split add up to the headword's length.", "quantifier": "every source of every dictionary, every setting whose normalisation never empties a text, every history of calls, every text and mode", "why_tests_cant": "It composes building, the file format, loading, id combination and the search for arbitrary sources; tests use one dictionary.", "anchors": ["sudachipy/dictionarylib/dictionarybuilder.py: build", "sudachipy/dictionary.py: Dictionary", "sudachipy/tokenizer.pyx: tokenize"]}
{"id": "C62", "title": "Totality, from the dictionary sources", "statement": "If the sources are complete (n by n matrix without forbidden connections, ids of the words in its range, at most seven user dictionaries, strings that fit the format, dictionary-form references that end within the recursion limit) and so are the settings, every tokenization of an encodable non-empty text of safe length, in any mode, raises no exception; with the numeric words free of separators it also terminates.", "quantifier": "every complete source and setting, every clean history, every text and mode", "why_tests_cant": "Absence of exceptions over all texts and all dictionaries.", "anchors": ["sudachipy/tokenizer.pyx: tokenize", "sudachipy/dictionarylib/wordinfolist.py: get_word_info", "sudachipy/dictionarylib/lexiconset.py: get_word_info"]}
{"id": "C63", "title": "Morphemes are rows of the sources", "statement": "Every morpheme of every result is an unknown or joined word, or shows one row of one source: its dictionary id is the dictionary's number, its word id the row's, and its word info (surface, length, part of speech, normalised form, reading, dictionary form, synonyms) says what the row says. In mode C, after successful calls only, the row's headword stands at the morpheme's place in the normalised text, at possible word boundaries, and the ids and the cost are the row's.", "quantifier": "every installation, history, text and mode", "why_tests_cant": "The statement ranges over all sources and follows a row through building, loading, splitting and rewriting.", "anchors": ["sudachipy/morpheme.py", "sudachipy/dictionarylib/lexiconset.py", "sudachipy/dictionarylib/wordinfolist.py", "sudachipy/tokenizer.pyx: tokenize"]}
{"id": "C64", "title": "Cheapest segmentation, by the costs in the sources", "statement": "Without path rewriting plugins, in mode C, after successful calls only, for texts of safe length: the result segments the normalised text into words of the sources and unknown words, and measured by the costs in the CSV rows (with automatic costs as C50 gives them) and in the lines of the matrix definition no segmentation of the text into words of the sources at possible boundaries is cheaper.", "quantifier": "every installation with a square matrix and ids in its range, every text", "why_tests_cant": "Optimality against all segmentations, for all dictionaries.", "anchors": ["sudachipy/lattice.pyx", "sudachipy/tokenizer.pyx: _build_lattice", "sudachipy/dictionarylib/grammar.py: get_connect_cost"]}
{"id": "C65", "title": "Character definitions as written", "statement": "A text line of char.def defines categories for a range of code points exactly when its first column is 0x..., or 0x...,..0x..., with low <= high and its other columns up to a comment are category names; then it gives exactly these categories to exactly these code points. Blank lines, comments and lines that do not begin with 0x give nothing. Everything else is refused: with ValueError if the first column begins with 0x and has no numbers, with AttributeError otherwise (one column, no range, an unknown category); the first such line decides, and a file without definitions raises IndexError. The file is accepted exactly when all of its lines are, and the categories of a character are those that the lines say (together with C10). Writing ranges as lines and reading them gives the ranges.", "quantifier": "every text of char.def", "why_tests_cant": "All texts, including odd white space, digits, signs and comments.", "anchors": ["sudachipy/dictionarylib/charactercategory.py: read_character_definition"]}
{"id": "C66", "title": "Unknown word definitions as written", "statement": "When the MeCab OOV plugin is set up, char.def gives each category its INVOKE, GROUP and LENGTH, and unk.def gives each category exactly the entries of its lines, in order, with the ids, cost and part of speech number they say. Set-up succeeds exactly when all lines are properties or ignored, no category is defined twice, and all entries are of defined categories and have ten columns; otherwise an error is raised.", "quantifier": "every text of char.def and unk.def", "why_tests_cant": "All texts.", "anchors": ["sudachipy/plugin/oov/mecab_oov_plugin.py: read_character_property, read_oov"]}
{"id": "C67", "title": "Rewriting definitions as written", "statement": "With an accepted rewrite.def the default input text plugin normalises as the text lines say: lines of two columns replace, lines of one character protect from normalisation, comments and blank lines say nothing. The file is accepted exactly when each line is one of these and no key is defined twice; otherwise RuntimeError.", "quantifier": "every text of rewrite.def, every input", "why_tests_cant": "All texts and inputs.", "anchors": ["sudachipy/plugin/input_text/default_input_text_plugin.py"]}
{"id": "C68", "title": "Opening a dictionary", "statement": "Dictionary(...) succeeds exactly when the settings can be set up, the system dictionary, the character definition, every plugin asked for by the settings (with the options and files it needs) and every user dictionary can be read, there is at least one OOV provider, and the part of speech of joined Katakana words exists; the plugins are then those of the settings, in order, with the options given there or the documented defaults. Adding user dictionaries to the settings of a dictionary that opens changes nothing but what the user dictionaries themselves bring.", "quantifier": "every settings file, machine and file content", "why_tests_cant": "All settings and files; each error branch.", "anchors": ["sudachipy/dictionary.py", "sudachipy/config.py", "sudachipy/plugin/input_text/utils.py", "sudachipy/plugin/oov/utils.py", "sudachipy/plugin/path_rewrite/utils.py"]}
{"id": "C69", "title": "The package as it ships", "statement": "On a machine with the resources the package ships (sudachi.json, char.def, unk.def, rewrite.def, read as text) and a core dictionary built from a complete source, Dictionary() opens and every encodable non-empty text of safe length is tokenized without exception in every mode. With user dictionaries in sudachi.json whose sources are complete together with the core's, it opens and is the installation of these sources.", "quantifier": "every complete source of a core dictionary, every text", "why_tests_cant": "All dictionaries and texts with the real configuration.", "anchors": ["sudachipy/dictionary.py", "sudachipy/config.py", "sudachipy/resources/sudachi.json", "sudachipy/resources/char.def", "sudachipy/resources/unk.def", "sudachipy/resources/rewrite.def"]}
{"id": "C70", "title": "Unicode literals in dictionary sources", "statement": "In a column of a dictionary source every literal \\uXXXX and \\u{XXXXX} is replaced by the character with that code, everything else is kept, and a text of such literals is read back as the characters it was written for. (The code does not do this for literals in braces with fewer than four digits, which are an error, nor with more than five, of which only the first five count; the last 65536 characters of Unicode cannot be written.)", "quantifier": "every text", "why_tests_cant": "All texts and literals.", "anchors": ["sudachipy/dictionarylib/dictionarybuilder.py"]}
{"id": "C71", "title": "Which sources build", "statement": "A dictionary source whose rows can be read, with parts of speech and matrix in the file format and of a size the format can hold, is built if and only if every row is well-formed, its numbers and strings fit their fields, its references find their words, at most 255 listed rows have the same headword, at most 32767 parts of speech are new, and the header and the connection costs fit; and a source that is built gives a file that loads.", "quantifier": "every source of a system or user dictionary", "why_tests_cant": "All sources; both directions of the acceptance condition.", "anchors": ["sudachipy/dictionarylib/dictionarybuilder.py", "sudachipy/dictionarylib/userdictionarybuilder.py", "sudachipy/dictionarylib/dictionaryheader.py"]}
{"id": "C72", "title": "A complete installation is made and works", "statement": "From a system dictionary source and up to seven user dictionary sources that can be written (C71) and are complete (square matrix without forbidden connections, ids in range, dictionary-form references that end, strings that fit, automatic costs only for words with a non-empty surface of safe length), with complete settings, all dictionaries are built and loaded (automatic costs included), and every non-empty encodable text of safe length is tokenized in every mode, into a partition of the text if the splits add up. No step is assumed to succeed.", "quantifier": "every set of sources, settings, text and mode", "why_tests_cant": "All sources and texts; the absence of exceptions in the whole chain from source to morphemes.", "anchors": ["sudachipy/dictionary.py", "sudachipy/dictionarylib/doublearraylexicon.py", "sudachipy/dictionarylib/dictionarybuilder.py", "sudachipy/tokenizer.pyx"]}
{"id": "C73", "title": "The rows of a CSV source file", "statement": "A table written as CSV (fields plain or in quotes with inner quotes doubled, rows ended by any kind of line break) and encoded in UTF-8 is read back as exactly its rows; every table without empty rows and carriage returns can be written; a blank line is an empty row, which the builder refuses; a quote that is not closed swallows the rest of the file; a field longer than 131072 characters is refused. If the lines end with an exception (a file that is not UTF-8), the rows given out are exactly those that are certain with the lines that were read, and then comes the error in these lines, if there is one, or the exception of the file.", "quantifier": "every table, every way to write it", "why_tests_cant": "All tables and all spellings of them, with quotes, commas and line breaks in fields.", "anchors": ["sudachipy/dictionarylib/dictionarybuilder.py:84-122"]}
{"id": "C74", "title": "Every result can be printed", "statement": "Every word of a result that is not a row of a dictionary is an unknown word made by a provider for the text at its place, a join of unknown words, or a joined number, with the part of speech of that provider or plugin; the parts of speech of opened settings are always in the list of a dictionary with at least one row; so on complete sources and settings the tokenize loop prints a line for every morpheme of every line of input, short or long, and no exception occurs. A morpheme whose surface and word info can be read has a line exactly if the number of its part of speech, counted from the end if negative, is in the table; else printing it raises IndexError.", "quantifier": "every installation, settings, input lines and mode", "why_tests_cant": "All results of all texts; the absence of exceptions while printing.", "anchors": ["sudachipy/command_line.py:60-77", "sudachipy/morpheme.py", "sudachipy/dictionarylib/grammar.py:54-58"]}
{"id": "C75", "title": "The build commands", "statement": "`build` and `ubuild` exit with code 1 exactly if a file is missing, and then change nothing; they never touch another file than the output file; they end normally exactly if the sources are read and the build of all rows together succeeds, and then the output file is the dictionary of those rows. The output file is emptied before the sources are read: given as a source, its rows are lost; given as the matrix, the build fails and the matrix is gone. CSV tables and a matrix whose rows can be built make a dictionary that loads, and dictionaries made by the commands and opened together are the installation of their sources.", "quantifier": "every machine state, file contents and arguments", "why_tests_cant": "All contents of the file system and all argument lists, including files that are given twice.", "anchors": ["sudachipy/command_line.py:80-125", "sudachipy/dictionarylib/dictionarybuilder.py:80-103", "sudachipy/dictionarylib/userdictionarybuilder.py:26-40"]}
{"id": "C76", "title": "The tokenize command", "statement": "`tokenize` exits with code 1 exactly if an input file is missing (so `-` is refused), and then changes nothing; it changes no file but the output file; it ends normally exactly if the output file and the dictionary can be opened, the input can be read to its end, and every line has its block, and then it has written exactly the blocks (and dumps) of the lines of the input in their order; if reading or analysing raises, what came before is written and nothing after; in UTF-8 no printed line is lost; on complete sources, and on the package as shipped with a core dictionary from a complete source, it succeeds for all readable input; an output file that is also the input is lost. With a dictionary whose matrix has no cells the command raises ValueError and prints nothing.", "quantifier": "every machine state, arguments and input", "why_tests_cant": "All contents of the file system, all inputs and all argument lists, including failures at every point.", "anchors": ["sudachipy/command_line.py:60-95", "sudachipy/command_line.py:128-190"]}
{"id": "C77", "title": "The dump of the analysis", "statement": "A call with a dump that succeeds has the result of the call without it; the dump shows the text after the input plugins, one numbered line for every node of the lattice from its end to its beginning with its place, word, part of speech, parameters and the costs of its connections, the best path before the rewriting and the path of the result, and it is the dump of a fresh tokenizer; with -d the command prints for every line its dump and then exactly what it prints without; on complete sources the dump never fails; on others it can fail where the analysis does not.", "quantifier": "every tokenizer, history, text, mode and list of lines", "why_tests_cant": "All lattices, and the equality of the results with and without the dump in all histories.", "anchors": ["sudachipy/lattice.pyx:124-151", "sudachipy/latticenode.pyx:107-114", "sudachipy/tokenizer.pyx:120-167", "sudachipy/tokenizer.pyx:193-197", "sudachipy/command_line.py:60-77"]}
{"id": "C78", "title": "Inhibited connections", "statement": "On a grammar that can be written, InhibitConnectionPlugin succeeds exactly when every item is too short or names a cell of the matrix; then exactly the named cells are inhibited. When it fails, exactly the cells named before the item it fails at are inhibited. Afterwards the possible segmentations are those of before without the named neighbours, at the same cost, and the analysis finds the cheapest of these, or fails exactly if there is none. The matrix of a system dictionary cannot be written and stays as it is, the pairs are read from the top of the settings, and no setting changes a connection cost of an opened dictionary. A setting that is no list changes no cell: a text, and an object whose keys have at most one character, do nothing, anything else is a TypeError.", "quantifier": "every grammar, list of pairs, text, lexicon, settings and machine", "why_tests_cant": "All matrices, pairs and all segmentations of all texts; optimality quantifies over exponentially many paths.", "anchors": ["sudachipy/plugin/connect_cost/inhibitconnectioncost.py:40-51", "sudachipy/plugin/connect_cost/editconnectioncost.py:55-65", "sudachipy/dictionarylib/grammar.py:73-85", "sudachipy/dictionarylib/binarydictionary.py:31-60", "sudachipy/dictionary.py:43-46"]}
{"id": "C79", "title": "The cheapest segmentation, unknown words included", "statement": "On dictionaries built from sources, the lattice of a text holds exactly the words that can be reached from its beginning: the rows of the sources whose headword stands there at word boundaries, and the unknown words that the settings of the providers give for the characters and their categories (MeCab: for each category the rest of the run if grouped and the prefixes up to the length; Simple: up to the next possible beginning, where there is no other word; the last provider again where there is no word at all). Without path rewriting, in mode C, the result is a cheapest segmentation into these words, and a call fails exactly if there is no allowed segmentation or a reached place without a word.", "quantifier": "every sources, settings, clean history, text", "why_tests_cant": "Optimality ranges over all segmentations of all texts, with all category tables and unknown-word definitions.", "anchors": ["sudachipy/tokenizer.pyx:32-87", "sudachipy/plugin/oov/mecab_oov_plugin.py:61-107", "sudachipy/plugin/oov/simple_oov_plugin.py:32-44", "sudachipy/lattice.pyx:60-122"]}
{"id": "C80", "title": "Exceptions that the lattice functions drop", "statement": "Whether Lattice.insert, connect_node and build_lattice_c pass exceptions on (Cython 3) or print and drop them (Cython before 3, which setup.py admits) makes no difference to what a successful call answers. If the matrix has all connection ids that occur, it makes no difference to the lattice after any calls nor to which calls succeed with what; only the kind of an exception can change. If not, a call that raises IndexError may answer, passing over dictionary words.", "quantifier": "every tokenizer, every history of calls, text and mode", "why_tests_cant": "Two compiled behaviours are compared after all sequences of calls, including failed ones.", "anchors": ["sudachipy/tokenizer.pyx:32-73", "sudachipy/lattice.pyx:37-108", "setup.py:27"]}
{"id": "C81", "title": "The command line", "statement": "However the options of tokenize, build and ubuild are written (argument apart, joined or after '=', flags together, --version abbreviated) and in whatever order, with all files in one place, main calls the command once with the files in order and the last argument of each option, and defaults otherwise; 'tokenize' may be left out if no word is the name of a command. Files in two places, no file or no matrix: exit code 2, nothing done. For any words: the mode is A, B or C, the dictionary type small, core or full, and build and ubuild have a file; if the first word is not a command but another word is, or is -h or --help, nothing is done.", "quantifier": "every command line", "why_tests_cant": "All command lines: any number of options and files, any spelling, any strings as arguments.", "anchors": ["sudachipy/command_line.py:33-54", "sudachipy/command_line.py:172-226"]}
{"id": "C82", "title": "What a tokenizer keeps between calls", "statement": "After successful calls the lattice keeps no node but BOS. Its capacity is the length in bytes of the longest (rewritten) text; the number of its lists is one plus the sum of the lengths of the texts that were longer than all before, and at most one plus the sum of all lengths whatever calls failed. It is not bounded by a multiple of the longest text: texts of 1, 2, ..., n bytes leave 1 + n(n+1)/2 lists.", "quantifier": "every tokenizer and sequence of calls", "why_tests_cant": "Memory after all sequences of calls; a test looks at answers, which do not depend on it.", "anchors": ["sudachipy/lattice.pyx:37-54", "sudachipy/tokenizer.pyx:120-167"]}
{"id": "C83", "title": "What is printed, from the sources alone", "statement": "For every line of input the command prints one line for each word and then EOS. The words are those of a segmentation of the normalised line into words of the CSV rows and unknown words that is cheapest by the costs of the rows and the lines of the matrix, joined by the path rewriting plugins and then divided by the split columns in modes A and B. Each line has the text of the word in the input and what the row says: part of speech, normalised form, and with -a dictionary form, reading, dictionary number and synonyms. So after `sudachipy build` with the shipped package every `sudachipy` prints what the tables say, and with a user dictionary in sudachi.json likewise after `sudachipy build` and `sudachipy ubuild`.", "quantifier": "all sources, settings, inputs (of safe length), modes and arguments", "why_tests_cant": "All dictionaries and all texts through the whole program, from the command line of build to the bytes printed.", "anchors": ["sudachipy/command_line.py:60-77", "sudachipy/command_line.py:117-166", "sudachipy/tokenizer.pyx:120-191", "sudachipy/dictionarylib/dictionarybuilder.py:90-304", "sudachipy/plugin/path_rewrite/join_numeric_plugin.py:40-107", "sudachipy/plugin/path_rewrite/join_katakana_oov_plugin.py:37-85"]}
{"id": "C84", "title": "Which of several cheapest segmentations is the result", "statement": "Of all segmentations of the normalised text into dictionary and unknown words, the result is the cheapest; of several cheapest ones, it is the one that is preferred: read from the end, where it first differs from another, its word is the longer one; of the same length, a dictionary word comes before an unknown word, a word of user dictionary 1, 2, ... before one of the system dictionary, an earlier row before a later one; unknown words come in the order of the providers, of the categories of the character and of the entries of unk.def. This determines the result.", "quantifier": "all sources, settings without path rewriting, texts of safe length, histories of successful calls", "why_tests_cant": "Ties between any number of segmentations of any text with any dictionaries; a test sees one winner, not why.", "anchors": ["sudachipy/lattice.pyx:56-125", "sudachipy/tokenizer.pyx:32-86", "sudachipy/dictionarylib/lexiconset.py:37-47", "sudachipy/dictionarylib/doublearraylexicon.py:56-63", "sudachipy/plugin/oov/mecab_oov_plugin.py:61-97"]}
{"id": "C85", "title": "Results do not depend on the order of a set", "statement": "The categories of a character are a Python set of Enum members, whose order depends on the randomised hashes of their names. Two runs of the program with the same files tokenize a text alike: both or neither fail, the costs are the same, and so are the words. (The last is false: two unknown words for two categories of a character can tie, and then the order decides between them; it holds, for loading and in every mode, with any plugins, if no character has two categories with entries in unk.def.)", "quantifier": "all sources, texts, histories and any two orders of the categories of every character", "why_tests_cant": "A test runs with one order; the orders of all sets, dictionaries and texts cannot be enumerated.", "anchors": ["sudachipy/dictionarylib/categorytype.py:18-50", "sudachipy/dictionarylib/charactercategory.py:105-123", "sudachipy/plugin/oov/mecab_oov_plugin.py:61-88"]}
{"id": "C86", "title": "Closing a dictionary", "statement": "Whatever a program does with its dictionaries, tokenizers and results, no live object finds a dictionary file closed. Dictionary.close succeeds exactly when the dictionary was not closed before, no tokenizer or result of it is left, and the cache of get_word_info, which all dictionaries share, remembers none of its words; otherwise it raises BufferError, all files stay readable, and they can never be closed again, as every later close and create raises AttributeError. (So a dictionary that has been used cannot be closed just because its tokenizers are gone.)", "quantifier": "all programs: any sequence of opening, creating, tokenizing, dropping, looking at words and closing, for any number of dictionaries", "why_tests_cant": "The outcome depends on every object alive in the process and on the last 1024 words looked at in any dictionary.", "anchors": ["sudachipy/dictionary.py:94-102", "sudachipy/dictionarylib/binarydictionary.py:62-65", "sudachipy/dictionarylib/lexiconset.py:61-71", "sudachipy/dictionarylib/grammar.py:42-45"]}
{"id": "C87", "title": "What a call raises", "statement": "For a tokenizer on dictionaries built from given sources: the first character that words reach and where the call cannot go on decides the exception, in every mode, with every path rewriting plugin, for any text and any number of user dictionaries. If a word of a dictionary from number 8 on begins there it is an OverflowError; otherwise no word, known or unknown, begins there, and it is a RuntimeError, or an AttributeError if no plugin for unknown words is configured. If there is no such character the call raises an AttributeError when every segmentation contains a forbidden connection; otherwise, without path rewriting plugins and in mode C, it succeeds.", "quantifier": "all sources, settings, texts, histories, modes and path rewriting plugins", "why_tests_cant": "The exception depends on all words of all dictionaries, on all segmentations of the prefix and on the connection matrix.", "anchors": ["sudachipy/tokenizer.pyx:122-170", "sudachipy/lattice.pyx:54-116", "sudachipy/dictionarylib/lexiconset.py:42-60"]}
{"id": "C88", "title": "What opening a dictionary raises", "statement": "Opening a dictionary, with settings whose numbers are numbers and whose replacement symbol is a string, raises exactly what the first failing step raises, in this order: reading the settings; the path and the file of the system dictionary and its content; char.def; the input text plugins, made and set up; the plugins for unknown words (an AttributeError if there are none), made and set up with their char.def and unk.def; the path rewriting plugins; the user dictionaries one by one, where the sixteenth is a ValueError without a look at its file, any one is a ValueError if the matrix has no cells, and the costs of each are computed with the dictionaries before it. A plugin object is refused exactly if it is no object (TypeError), has no class, an unknown class or lacks a key its class needs (ValueError), or has sound marks that are no characters (TypeError).", "quantifier": "all disks, settings, arguments, dictionary files and histories", "why_tests_cant": "Every combination of missing, broken and wrong files and settings would have to be tried; the theorem gives the exception of each of them.", "anchors": ["sudachipy/dictionary.py:31-85", "sudachipy/plugin/input_text/utils.py:22-41", "sudachipy/dictionarylib/lexiconset.py:30-37", "sudachipy/config.py:30-121"]}
{"id": "C89", "title": "What building raises and leaves", "statement": "The exception that ends a build is that of the first check that fails: the header; the rows one by one; then the parts of speech, the connection costs line by line, the number of words of a headword, the parameters of the rows; then the word infos row by row and field by field, with the references of the splits. The header, the connection costs and the rows are exact for any input; the rest for sources that fit the format and have room in the index. Whether or not the build raises an exception, the file it leaves loads exactly if nothing up to the words of a headword fails. (So a build that fails at a parameter or a word info leaves a file that loads without any error; if it fails at a word info the dictionary has all words with their parameters, and all of them have the same surface, part of speech, reading and normalised form, read from the first byte of the file.)", "quantifier": "all sources, system dictionaries and implementations of the double array", "why_tests_cant": "Every combination of wrong fields in any row would have to be tried, and the order of the checks decides which exception is seen.", "anchors": ["sudachipy/dictionarylib/dictionarybuilder.py:68-390", "sudachipy/dictionarylib/userdictionarybuilder.py:22-60", "sudachipy/dictionarylib/dictionaryheader.py:55-70"]}
{"id": "C90", "title": "Text files are read in pieces", "statement": "A text file is read and decoded in pieces of 8192 bytes. However a file is cut into pieces, it can be read to its end exactly if it is the UTF-8 of some text, and then its lines are those of the text. If it is not, the lines that are complete before the first piece that shows it are given out, and no others, and then there is a UnicodeDecodeError. `tokenize` analyses and prints these lines before it fails; if everything up to the bad byte lies in one piece nothing is printed.", "quantifier": "all files and all cuts into pieces", "why_tests_cant": "Characters and line ends can lie across any border of two pieces, and a bad byte can be anywhere.", "anchors": ["sudachipy/command_line.py:161", "sudachipy/command_line.py:77-95"]}
{"id": "C91", "title": "What the build commands raise", "statement": "The exception that ends `build` is that of the first step that fails, in this order: opening the output file; opening the matrix; the header; the source files one after another, each row checked as it is read (so that a wrong row comes before a byte that is not UTF-8 in a later piece of the same file, or before a later file that is missing); whether the matrix is text, after the parts of speech and, if the matrix's first line can be read, after the checks of that line; the build of all rows together. For `ubuild` the same, with the system dictionary named or found by the settings and read before the output file is opened. If the output file can be opened, what it had is lost: it is empty, or has the header alone, if a step before the build of the rows fails.", "quantifier": "all machine states, arguments and files", "why_tests_cant": "The order of the checks decides which exception is seen, for every combination of broken files.", "anchors": ["sudachipy/command_line.py:80-125", "sudachipy/dictionarylib/dictionarybuilder.py:80-103"]}
{"id": "C92", "title": "Which files are dictionaries, and what reading the others raises", "statement": "A file can be read as a dictionary exactly if it has the documented format (header of 272 bytes with a version, a time and a description; parts of speech and matrix if the version says so; trie, word-id table, parameters), and what is read is what the format says. Every other file is refused with the exception of the first thing that is wrong: ValueError for a file without bytes or one that ends in a length or before the lexicon, struct.error for one shorter than 16 bytes, IndexError for a description that does not end, UnicodeDecodeError for text that is no UTF-16, Exception for another version, TypeError for tables that end in the middle of a number. The same for the entry of a word: it is read exactly if it has the format, else the exception is that of the first wrong part. A word can be read exactly if the way along the dictionary forms ends within the recursion limit over right entries; words whose dictionary forms lead back to themselves always end in RecursionError.", "quantifier": "all byte sequences, all places, all recursion limits", "why_tests_cant": "Damaged files are endless; tests read a few intact ones.", "anchors": ["sudachipy/dictionarylib/binarydictionary.py:31-46", "sudachipy/dictionarylib/dictionaryheader.py:31-42", "sudachipy/dictionarylib/grammar.py:19-46", "sudachipy/dictionarylib/doublearraylexicon.py:35-51", "sudachipy/dictionarylib/wordidtable.py:19-23", "sudachipy/dictionarylib/wordparameterlist.py:21-29", "sudachipy/dictionarylib/wordinfolist.py:27-77"]}
{"id": "C93", "title": "The setting file as it is written", "statement": "A setting file is read exactly if it is UTF-8 text of the JSON grammar (white space, strings with escapes and pairs of surrogates, numbers, NaN and infinities, lists, objects in which a repeated key keeps its place and gets the later value), and what is read is the value that the grammar gives to it, which is only one. Every other file is refused: what opening it raises, UnicodeDecodeError if it is not UTF-8, JSONDecodeError (a ValueError) if the text stands for nothing, RecursionError if lists and objects are nested deeper than the limit; setting up then changes nothing but the path. The setting file that ships is read as the shipped settings, so what is proved of these holds of a machine with the shipped files.", "quantifier": "all files, all texts, all nesting limits", "why_tests_cant": "Texts are endless; a test reads a few setting files, all of them right.", "anchors": ["sudachipy/config.py:65-71", "sudachipy/resources/sudachi.json:1-28"]}
{"id": "C94", "title": "Setting files that are no object", "statement": "With a setting file that holds JSON but no object (null, a number, a text, a list), set_up never succeeds. It raises ValueError if dict_type is unknown; else ModuleNotFoundError if the package of the dictionary is not installed and the value is a text or a list in which the name of the key does not occur; else TypeError. The value is stored nevertheless and the settings count as set up: later uses raise TypeError (items, system dictionary), AttributeError (keys, in), KeyError or TypeError (character definition) and do not fall back to the default file, but the list of user dictionaries is empty without an exception if the value is a text or a list without that key's name. A later set_up with a readable file is as good as the first. With objects everything is as in C52.", "quantifier": "all setting files, all values, all settings before, all machines", "why_tests_cant": "No test has a setting file that is no object; which exception comes depends on the value, the argument and what is installed together.", "anchors": ["sudachipy/config.py:65-118"]}
{"id": "C95", "title": "Which command lines are accepted", "statement": "The program calls a command exactly for the lines of one grammar, with exactly what the line asks for, and no line asks for two things: the name of a command, or nothing for tokenize if no word is the name of a command or -h or --help; then options, all files in one place, options; or options, files, -- and files of any form. A word counts as a file or as the argument of an option if it has no minus sign in front, is the minus sign alone, or is a negative number (digits of any script) or has a space in it and starts with no option of the command. To build, a file is required, and a matrix for the system dictionary. For any other line nothing is done and the code is 0 or 2: 0 exactly if the arguments of the command ask for help (-h among flags, --help or its beginning) before anything is wrong with them other than options the command does not have, and no word before -- is ambiguous; or if, with a word that is the name of a command or -h or --help in the line, a word in front of any command and after nothing but options unknown to the program asks for help.", "quantifier": "all command lines, all files and machines", "why_tests_cant": "There are infinitely many lines, and the tests call the commands without the command line.", "anchors": ["sudachipy/command_line.py:33-54", "sudachipy/command_line.py:172-226"]}
{"id": "C96", "title": "Values of the wrong type in the settings of plugins", "statement": "A replacement symbol that is no text, ids and a cost of unknown words that are no numbers and a shortest length that is no number are kept when the dictionary is opened. If opening with these checked at once does not end in TypeError, opening is the same: settings, dictionary, plugins, exceptions, and every text is tokenized the same. With values that cannot be used, a call of tokenize has the answer and leaves the lattice of the tokenizer with any usable values in their place, or raises an exception of one of these values; an answer does not depend on what is put in their place. If the only provider of unknown words has such a value and no word of the dictionary starts at the beginning of the text, the call raises the exception of the first such value. Such a value is not asked for if at every place where a word can begin the dictionary has one that ends where a word can end; a symbol is asked for exactly if there are two marks in a row; a length is not asked for unknown words, and is for a word of the dictionary at the beginning. The plugins the settings give, and the exceptions of the values, are stated: a number, true and false count; any other value but a float is a TypeError where a number is wanted, and what is no text an AttributeError.", "quantifier": "all settings, machines, dictionaries, texts, modes and states of the lattice", "why_tests_cant": "The tests use settings with values of the right type only.", "anchors": ["sudachipy/plugin/oov/simple_oov_plugin.py:22-44", "sudachipy/plugin/input_text/prolongedsoundmark.py:20-50", "sudachipy/plugin/path_rewrite/join_katakana_oov_plugin.py:25-83", "sudachipy/latticenode.pyx:46-49"]}
{"id": "C97", "title": "The questions a range of characters answers", "statement": "Range.containing_length(text) is the length of the longest prefix whose characters are between low and high, high included; contains excludes high, so that the two disagree about that one character and agree on texts without it. For a range with characters every code point is below it (higher), in it (contains) or above it (lower), and only one of these; two such ranges match exactly if they contain the same code points.", "quantifier": "every range, every text, every code point", "why_tests_cant": "The only test of containing_length has no text with the bound; the claims are about all ranges and texts.", "anchors": ["sudachipy/dictionarylib/charactercategory.py: Range.contains, containing_length, lower, higher, match"]}
{"id": "C98", "title": "The word-id table of any lexicon", "statement": "Whatever the bytes of a lexicon, WordIdTable.get(index) gives the ids of the entry at the index (one byte with their number, then four bytes each, little-endian), raises IndexError if the index is behind the table and struct.error if the ids do not fit in it. DoubleArrayLexicon.lookup gives for each match of the trie in its order the ids of its entry with the end of the match, or raises the exception of the first match whose entry is at fault. Taken item by item, the generators of one lexicon and of a set yield the same items as when run to their end, whenever no exception is raised.", "quantifier": "every table, well formed or not, every index, every result of the trie search, every text and offset", "why_tests_cant": "The tests read the tables of two dictionaries built correctly; the claim covers damaged tables and every index.", "anchors": ["sudachipy/dictionarylib/wordidtable.py: get", "sudachipy/dictionarylib/doublearraylexicon.py: lookup", "sudachipy/dictionarylib/lexiconset.py: lookup, __lookup"]}
