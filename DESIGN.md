# GDX: formal model and proofs — design

Source: `/repo` (GAMS-dev/gdx, C++), read as text only. Model and proofs: `/verif/lean`
(Lean 4.33.0, Mathlib single-module imports). Properties: `properties.jsonl`; which theorem
settles which property: `MANIFEST.json`; seeded-bug experiments: `seeded/LOG.jsonl`.

## 1. Trusted base

* the Lean 4.33.0 kernel (and the elaborator for producing the terms it checks);
* axioms: at most `propext`, `Classical.choice`, `Quot.sound` (each property file ends with
  `#print axioms` for its theorems; no `sorry`, `admit`, own `axiom`, `native_decide`, `bv_decide`);
* the translation of the C++ into Lean definitions, done by hand. Every definition has a comment
  with file and lines of the C++ it stands for and the simplifications made;
* the properties' Lean statements (files `Verif/Props/*.lean`, small specs in `Verif/Spec/*.lean`).

## 2. Modelling conventions

* **Bytes and strings.** `Str = List UInt8`: a C string is its bytes without the terminating 0.
  API inputs are C strings, so they contain no 0 byte (`CStr`); where it matters this is a hypothesis.
* **Integers.** C++ `int` is `Int` together with explicit range checks; where the C++ would overflow,
  dereference a null pointer or index outside a table the model has the separate outcome `ub`
  (undefined behaviour) instead of inventing a result. Theorems that say "returns failure" therefore
  also say "is not `ub`". A violated `assert` and an uncaught exception count as `ub`.
* **Doubles.** A double is its 64 bit pattern (`UInt64`). Comparisons against constants
  (`>= 1e301`, `== 0.0`, NaN/inf tests) are done on the bits. The only arithmetic the modelled code does on
  values (`1e301 * i`, `x / 1e301`, round) is modelled by exact rationals followed by a concrete
  IEEE-754 round-to-nearest-even function (`Model/Ieee`).
* **Files.** A file is `List UInt8`; the writer issues positioned writes, which are also kept in a ghost log
  (used for crashes). The API model is placed on an unbuffered byte file; the buffered stream is modelled separately
  and proved transparent (C19), so using the unbuffered file loses nothing.
* **Compression.** Modelled in the stream layer (C20, zlib an arbitrary pair of functions with
  `uncompress (compress x) = x`). In the API model a stretch of the file between two flushes goes through a parameter
  `z : Cz` (encoder and decoder of a stretch) with the law `Cz.Good` (what is encoded is what is decoded, whatever follows),
  which is what C20 gives. All theorems over API histories hold for every such `z`.
* **Crashes.** A crash leaves the file after some prefix of the *byte* writes, in the order in which the library issues
  them (`Spec/Crash`); of the block that is being written and is not yet in the model's file any bytes behind the end may
  have arrived. Reordering by the operating system or the disk is not modelled.
* **Tables.** The API model uses lists with linear search for name tables, functions/assoc lists for
  integer maps, lists for sorting. The data structures that really do this work (hash list, integer
  mapping, bit array, radix sort) are modelled separately, and C15, C17, C18, C16 are the
  refinement theorems that justify the abstraction.
* **State machine.** The object (`TGXFileObj`) is one record of state (`Model/State`); every API function is a total
  function `State → args → Res (State × result)`, `Res = ok | ub`. Histories are finite lists of
  API calls (`Model/Api`: `Call`, `step`, `run`); invariants are proved by induction over them. Loops of the C++ that end
  because input is used up have a fuel argument whose exhaustion is `ub`; theorems show it is not reached.
* **Pointers.** Null pointers are `none`; `CurSyPtr` is `none`, a symbol number or `dangling` (it points into a freed table);
  using a `dangling` pointer is `ub`.
* **Callbacks.** A callback is the list of its calls; where its answer matters the answer is an arbitrary function of the records
  delivered so far. Callbacks that call the library back are not modelled.
* **Output buffers.** A string that does not fit the documented buffer of the caller is `ub`.

## 3. Code modelled / not modelled

| code | Lean module (`Verif/Model/`) |
|---|---|
| `gdlib/gmsstrm.cpp` TXStream primitives | `Prim` |
| GmsInteger/GmsDouble, bool, char, PChar | `GmsNum` |
| TXFileStream password | `Password` |
| TBufferedFileStream with compression, over a file with pointer | `BufStream`, `PFile` |
| TMiBufferedStream byte order | `ByteOrder` |
| `gdlib/datastorage.hpp` TLinkedData (radix sort) | `RadixSort` |
| `gdlib/strhash.hpp` TXStrHashList / TXCSStrHashList | `StrHash`, list view `Names` |
| `gdlib/gmsobj.hpp` TBooleanBitArray | `BitArr` |
| `gdlib/gmsobj.hpp` TQuickSortClass, TXSortedStringList, TXHashedStringList, TXStrPool | `StrList` |
| `gdlib/gmsobj.hpp` TXList (pointers as values; objects are not freed) | `XList` |
| `gdlib/strutilx.cpp` DblToStrSep, `gdlib/dblutil.cpp` hexadecimal formats (dtoaLoc: any function meeting `Nearest15`) | `DblStr` |
| `gxfile.cpp` TIntegerMapping, TUELTable, TAcronymList | `IntMap`, `Uel`, `Acro` |
| `gxfile.cpp` string checks/normalisation, `gdlib/utils.cpp` trimRight, sameText | `StrUtil` |
| arithmetic on acronym values | `Ieee` |
| special values, value coder | `Val` |
| InitDoWrite/DoWrite/DoRead record codec | `Rec` |
| members of TGXFileObj, SetError, CheckMode | `State` |
| gdxOpenWriteEx, PrepareSymbolWrite, all data writers, gdxAddAlias, gdxAddSetText, gdxSymbolSetDomain(X), comments, element registration, gdxRenameUEL | `ApiWrite` |
| gdxClose, gdxOpenReadXX, gdxOpenAppend: layout of the whole file | `FileFmt` |
| PrepareSymbolRead, DoRead with AcronymRemap, raw/string/mapped readers, filters | `ApiRead` |
| queries, special-value API, acronym API, callback readers, gdxGetDomainElements, slices, length queries | `ApiQuery` |
| histories of calls | `Api` |
| `tools/gdxdiff/gdxdiff.cpp`: OpenGDX, CompareSy with its local functions, the part of main that calls them | `Diff` |
| `tools/gdxmerge/gdxmerge.cpp`: AddPGXFile, CollectBigOne, WritePGXFile, WriteNameList, acronyms, the part of main that calls them (`std::sort` is a parameter) | `Merge` |
| `tools/gdxdump/gdxdump.cpp`: WriteSymbolCSV with QQCSV, WrVal, GetUELAsString, GetDomainNames | `Dump` |
| the same, Format=normal: WriteSymbol, WriteUEL, WriteQUELText, WriteQText, WriteAcronyms, WriteUELTable, WriteSymbolsAsSet (without domains) | `DumpGams` |
| the same: main without Symb (`$onEmpty`, acronyms, all symbols, `$offEmpty`) | `DumpAll` |
| the same: WriteSymbol with Format=gamsbas and main with it | `DumpBas` |
| the same: WriteSymbolInfo, WriteDomainInfo, WriteSetText, WriteSymbolsAsSet with domains | `DumpList` |
| `tools/library/cmdpar.cpp`: AddParameters with its local functions (parameter files are a function from names to lines), HasParam, HasKey | `CmdPar` |
| `tools/gdxdiff/gdxdiff.cpp`: main up to the first file that is opened (utils::val and FileExists are parameters) | `DiffOpts` |
| `tools/gdxmerge/gdxmerge.cpp`: main up to the first input file, GetParameters, FindGDXFiles (the file system and the texts of dates are parameters) | `MergeOpts` |
| `tools/gdxdump/gdxdump.cpp`: main up to gdxOpenRead, NextParam (the command line and the existence of files are parameters) | `DumpOpts` |
| `tools/gdxdump/gdxdump.cpp`: main as a whole, with the exit codes (files, their contents and whether a file can be written are parameters; no messages except `Symbol not found`; the line for the IDE with -V is left out; an existing file can be read; records read after the input file was emptied as output file: undefined) | `DumpMain` |
| `tools/gdxdiff/gdxdiff.cpp`: main as a whole, with the exit codes, the temporary file and the renaming (POSIX; files, their contents, the answers of creating, unlink and rename, and what is seen of the unfinished temporary file are parameters; one name for each file; no messages on the error output; the library is always loaded) | `DiffMain` |
| `tools/gdxmerge/gdxmerge.cpp`: main as a whole, with the exit codes and the last lines (the input files are read as they are after the output file was begun; one name for each file; no other messages) | `MergeMain` |
| `rtl/p3io.cpp` P3_Val_i (strtol is modelled from the C standard) | `ValInt` |
| `rtl/sysutils_p3.cpp` dates and times; FormatDateTime of gdxmerge (localtime_r is a parameter; the Windows branch is not modelled) | `Dates` |
| `rtl/sysutils_p3.cpp` IntToStr, StrToInt64, StrToInt, IntToHex; `gdlib/strutilx.cpp` IntToNiceStrW, IntegerWidth, StrExcelCol, ExcelColStr | `IntText` |
| double arithmetic of gdxdiff (subtraction, division, comparison), as exact rationals rounded to nearest even | `Float` |

Specifications independent of the model are in `Verif/Spec`: `Names`, `Maps`, `Sorting`, `Records`, `Values`, `Writing`, `Reading`,
`MapRead`, `Layout`, `Crash`, `Gams` (reader of GAMS declarations), `GamsProg` (reader of programs), `GamsBas` (reader of assignments), `GamsLoad` (reader of declarations without data and of `$loadDC`), `Listing` (lines and words of a table, order of names), `CmdLine`, `DiffOpts`, `MergeOpts` and `DumpOpts` (meaning of a command line), `ValInt` (texts of integers), `Dates` (calendar), `IntText` (decimal numbers, groups of digits, names of columns). Proof machinery is in `Verif/Proofs`: the calls as chains of licensed elementary steps
(`Evo*`, `Hist`), invariants over histories (`UelInv`, `SymInv`, `WriteInv`, `SvInv`, `UsrInv`, `PhaseAll`, `StatInv`, `Own`, `Fine`),
the file (`TableRound`, `Reopen`, `Arrive`), a symbol from its start call to the closed file (`Session`, `Phase`, `Stored`, `Kept`,
`RawLog`, `RawSeq`, `RawSession`, `RawTotal`, `Coll*`, `SortLog`, `DomFix`, `FirstOf`), reading (`Reading`, `ReadStart`, `ModeFree`,
`Trace`, `YieldsAs`, `Map*`), data structures (`StrHash`, `RadixSort`, `IntMap`, `BitArr`, `Buf*`, `Ieee`, `Rec*`, `Enc`, `Val`).

Not modelled: zlib itself, the operating system's file calls beyond read/write/seek of bytes (`rtl/p3utils`) and their errors, memory
allocation (`batchalloc`, exhaustion), trace output (`gdxSetTraceLevel`, WriteTrace), the external program started by
ConvertGDXFile when the environment asks for another format, reading a file of the other byte order through the API (its
numbers: C21), library loading / C wrapper generation (`gdxcc`), messages of `gdxdiff`, `gdxmerge` and `gdxdump`, the
text-file streams (`TBinaryTextFileIO`), audit-line text contents, operating system error messages, multi-threading.

## 4. Property by property

Status and theorem names: `MANIFEST.json`. How the parts are proved:

* **C01, C51, C53, C55** record codec on byte lists by induction over the records with "reader state = writer state"; lifted to the API: the log of a symbol that is being written (`RawLog`), its block in the closed file (`Stored`), unchanged by all later calls (`Kept`), and reading by any object.
* **C02, C03, C25, C44** records collected for sorting = stable sort (C16) of the translated records, first record per key; domains as bit maps of sets written before.
* **C04, C05, C31** value coder by case analysis on bits for all 2^64 patterns and all tables; acronym values by exact rationals.
* **C06, C26, C33, C35, C41** writer and parser of all tables as bytes; `Spec/Layout` describes the file independently of both.
* **C07, C08** prefix of the byte writes; invariant: between opening and closing nothing is written in front of `NextWritePosition`.
* **C09** every call in a mode that does not admit it; for calls that check first, state changes are only the error register.
* **C10** ghost list of the errors raised.
* **C11–C14, C30, C32, C35, C40, C52** invariants of the tables over all histories (`Prim` steps).
* **C15–C18** refinement of the data structures.
* **C19–C21, C38, C39** streams.
* **C22–C24** `Spec/MapRead` gives the meaning of a mapped read record by record; both implementations (streaming, sorting) are proved equal to it.
* **C27–C29, C36** folds over the sequence of records that DoRead delivers (`Trace`).
* **C34, C46** pure string functions.
* **C37, C43, C49, C50, C54** readers of a symbol whose block is known.
* **C42** every query for every number.
* **C45, C48** two objects compared call by call: a relation between them that every call keeps (`Proofs/Twin`), files that agree below the write position.
* **C47** gdxClose in every mode.
* **C56** values of doubles as rationals; rounding is monotone and fixes doubles (`Proofs/Float`).
* **C57** contents of files are compared by definitions of their own (`SameFiles`, `SameSym`, `SameKey`, `ValsAgree`, `Agree`): labels by their text ignoring case, values through C56. The program renumbers elements (a common table of labels, user numbers in both readers); `Proofs/DiffReady` shows that user number = label, `Proofs/DiffLoop` that the loop over two sorted lists of keys finds exactly the records on one side and the pairs of equal keys, and `Props/DiffFiles` puts the symbols together. `Props/DiffOwn` gets the hypotheses from histories of calls.
* **C58, C59** what gdxdiff does with an object that it reads is an inductive relation (`Seen`); it leaves everything alone that the comparison looks at (`Proofs/ReadFix`), and opening the same file twice gives the same object (`Proofs/DiffOpen`).
* **C60** works on arbitrary bytes: `decRec_enough` shows that a record can be decoded from any 126 bytes except in the cases listed in `Broken`; the state while reading (`Midway`) does not mention the content of the file. Reading a missing byte is undefined here, because the library leaves the value as it is.
* **C61, C62**: the collected table after each symbol is described by a plain function of the symbols read so far (`table`, MergeColl), whose rows are then characterised without it (`Leads`, `RowOf`, `Errors`, MergeTable). The sort routine of the record list is any function that meets `Sorting`. `C61_merge_partial` has the input files as symbols and records read through the library (`Input`); `C61_own_partial` derives that for files written by any sequence of calls (MergeInput). The explanatory text of a symbol is the first one that is not empty, as the library stores it (`Explained`). With BIG the two passes are an instance of one lemma about a pass with an invariant (`PassInv`, MergePass); the loop that writes the small symbols and the one that collects and writes the big ones (MergeBigWrite) keep the invariant that the symbols written so far are as they should be (`WInv`). `Agree` is the condition that symbols with one name agree; `weight` is the number of entries that the program counts.
* **C63, C64, C65**: an invariant ties the table (chains, order, places of memory) to a plain list; each operation keeps it and does to the list
  what the property says. Quick sort: the partition loops are bounded by places that are known to hold a key on the right side (`Parting`),
  the recursion is on the length of the interval; comparison functions are any total preorder (`Cmp`).
* **C66**: a text is given its value by a parser written for the purpose (`decVal`, `hexpVal`). `text_plain` and `text_exp` (DblStr) follow the
  digits through the shifts in place. The conversion to digits (`dtoaLoc`, David Gay's code) is not modelled; the theorems hold for every
  function that gives a decimal of at most 15 digits nearest to the double (`Nearest15`).
* **C67, C68**: the text is read by a CSV reader written for the purpose (`csvRead`, Proofs/Csv), a state machine over characters that knows nothing
  of gdxdump; the rows it finds are compared with the records that the library delivers (`RowOf`).
* **C69**: the lines are cut where the first changed position is below the dimension (`group`); each line is a merge of the columns and the records of the
  line (`colCells_ok`); `IsTable` describes the result by keys alone.
* **C70, C71**: the text is read by a reader of GAMS declarations that knows nothing of gdxdump (`Spec/Gams`): comment lines are removed, then kind, name,
  domains, text and the list of data are parsed; labels may be quoted, a value or text ends at a blank, comma or slash. What it is meant to accept was
  taken from the GAMS manual as far as gdxdump uses it; this reading is part of the trusted base. The texts of files satisfy the quoting rule by an invariant
  over all histories (`SymOk.expl`, `TextsZ`).
* **C72**: what should be in the difference file is said by entries (`DiffEntry`, `IsEntry`: insertions and differences, by the labels of the records), the
  table of results by `TableIs`; neither mentions numbers of elements. The program's run over two symbols gives a list of events (`pair_writes`, `Gave`), the
  writes of the events end in a file that is read by the library (`Proofs/DiffWrite`, `readDiff`). The order in which a verdict is found (`Earlier`) is that of
  the labels in both files, file 1 first. With the option FldOnly a variable becomes a parameter of one field (`OneField`, `HeadIs`, `ValuesOf`); the
  explanatory texts are part of the statement. With DiffOnly an entry for a variable or equation has one record for each field in which the two records differ,
  or for each active field of a record that is in one file only (`FieldsAre`, `IsPart`), with the name of the field as label before the last. The program
  rejects DiffOnly together with FldOnly (gdxdiff.cpp:883), so the theorems exclude the two together.
* **C73**: `Means` says what arguments mean (a grammar over the list of arguments; it knows nothing of the string that the program builds), `Expand` puts the words
  of parameter files in place of their names, `Input` marks the input. The theorem is for words without `=`, `"`, `@` that start with an ASCII character (`Word`);
  what happens outside is shown by the theorems of §5. `char` is taken as signed (x86).
* **C74**: `Bad` and `Takes` say for a list of parameters when it is not valid and what the options are (`Spec/DiffOpts`, from the usage text); identifiers are
  separated by the library function `List.splitOnP`. The conversion of a number is a parameter (`num`).
* **C75**: `Bad`, `Takes`, `Uses` (`Spec/MergeOpts`) say what is an error, what the options are, and which files are taken with which labels. The file system is
  a function from patterns to names (`find`), and what exists and can be written. `Valid` leaves out values that the program ignores or changes (§5);
  `Tidy` says that the names that are found contain no `/` and that they are fewer than 2^31.
* **C76**: `IntText` is a grammar of integers (digits, value by the digits in their base). `strtol` is modelled from the C standard, with 64 bits (Linux).
* **C77** closed form of the day numbers by induction over the years, decoding by the decomposition 400/100/4/1; the rounding errors of EncodeTime, the sum, the product and round are bounded on exact rationals (at most 0.17 milliseconds).
* **C78** the loops by induction on their bounds; the digits equal those of `Acro.intToStr`, which the rest of the model uses.
* **C79**: `Means` (`Spec/DumpOpts`) reads the arguments as the usage text explains them, `Bad` and `Conflict` are the errors, `Takes` the options in force. `loop_means` shows that
  the loop over NextParam takes one option with its value after the other; the variables are then compared with the list of options (`vars_of`, `steps_some`).
* **C80**: `program` (`Spec/GamsProg`) reads statements with the declaration reader of `Spec/Gams`. `own_decl` (C70) gives each declaration for every state that reads the file; the reader is
  shown to be independent of what follows a statement (`decl_ext`), so the statements can be put together (`stmts_decl`, `written_all`).
* **C81**: the tables are read as lines and words (`Spec/Listing`). `symMap_ok` shows that the map holds every symbol in the order of the names; the widths of the columns are shown to be large enough for every
  entry, so all rows are aligned with the header; `textSearch_ok` shows that the bisection finds the number of texts. `own_domains` supplies the hypotheses for files of the library.
* **C82**: `basis` (`Spec/GamsBas`) reads assignments and follows `$offListing` and `$onListing`. `Sets` says that a text is read as given assignments whatever follows it; `Sets.items` joins the values, whatever
  their number and the number of values before them. The reader takes dots as well as commas between labels: gdxdump writes dots unless Delim is given; whether GAMS takes them in an assignment is outside this model.
* **C83**: `loadProgram` (`Spec/GamsLoad`) reads declarations without data, aliases, `$gdxIn` and `$loadDC`, and removes what follows `!!` in a line once `$eolCom !!` was read. `LReads` says that a text is
  read as given statements whatever follows it. The texts between the pieces are shown to contain no `!!`, so only the marks `!!empty` are removed. Symbols with comments, texts with `!!` and acronyms are
  excluded, each with a witness.
* **C84**: puts C41, C67, C69, C70, C71, C78, C79, C80, C81, C82 and C83 together (`Props/DumpMain`; CSV, gamsbas and the lists in `Props/DumpRuns`). `C84_exit_partial` is about all contents of the files, under the assumption that the run has a defined end; what it writes is `front` and `body` of
  the model, whose meaning the other theorems give for files of the library. `OutputIs` says where the text went.
  `Wants` says which list is written if several are given.
* **C85**: puts C41, C57, C72 and C74 together (`Props/DiffMain`). `C85_exit_partial` is about all contents of the files and all answers of the file system, under the assumption that the run has a defined end: `Ends` lists the cases with exit code, files and standard output; the table is that of the model (`statusTable`), the file that of `finishDiff`. `C85_codes` says what follows from an exit code. `C85_own_partial` is about files of the library with the limits of C72: exit code 0 exactly if the contents are the same in the sense of C57, and the difference file is the one of C72; closing it is always defined (`Proofs/DiffClose`, with C87). Trusted: rename and unlink do what POSIX says; the deletion of the temporary file in FatalErrorExit succeeds; two different names are two different files.
* **C86**: puts C41, C61, C62 and C75 together (`Props/MergeMain`, counting in `Proofs/MergeCount`). `C86_exit_partial` is about all contents of the input files, under the assumption that the run has a defined end and that no error of the file system has the number 0; command lines as in C75. `Readable z fs n` says that `n` of the files are accepted by the library (in the sense of C41) and the others are refused or missing. `C86_own_partial` and `C86_big_partial` are about files of the library, with the limits of C61 and C62, for whatever command line leads to these files; closing the output is always defined (`Proofs/MergeClose`, with C87), so C61 and C62 need no assumption about it either.
* **C87**: `C87_close` is an equivalence, for every history in which only files of the library are opened (`After`): closing is defined exactly if no comment and no name or text of an acronym has more than 255 bytes. `CommentsEnd` is about the stored comments: `none` is a comment that was stored without its end (C35). `C87_other` is about all states without a file being written. `C87_merge` and `C87_diff`: whatever files gdxmerge and gdxdiff read, they give their output file no comment or acronym that is too long; this is shown by going through the functions of both programs with `Closable` as invariant. `C87_writing` (`Props/ClosingWriting`): while records are being written, gdxClose is defined exactly if gdxDataWriteDone is and all texts are short enough; in raw mode this is so exactly if no Start function was refused since then (`C87_done`, `C87_raw`; `Proofs/CurIn` is the invariant over all histories), in mapped and string mode the same holds (`C87_sorted`, `C87_collected`, `Props/ClosingSorted`; `Proofs/SortInv` is the invariant over all histories, also with gdxRenameUEL) for at most 2^31 - 257 elements and 2^31 - 1 collected records. The state directly after a Start call is in C47. Missing: larger tables.
* **C88**: `C88_map_partial` and `C88_str_partial` (`Props/RecordsGiven`) are about every history in which only files of the library are opened (`After`), with the invariant of `Proofs/SortInv`: in mapped or string mode either CurSyPtr and SortList are null or the collected records are in order (`Coll`). `collected` is the number of records in the sort list. In string mode the theorem is about strings whose trimmed form fits the buffer of 256 bytes (`trimR`), and says that the call is defined, that an accepted record is counted, and that a refused one notes one error and has a string that is no legal element; which element an accepted string stands for is in C02. `C88_refused`: after a refused Start function no record is accepted. `C88_raw_partial` (`Props/RecordsGivenRaw`) is the same for gdxDataWriteRaw, with the invariant of `Proofs/RawInv` over all histories in which the keys of raw records are numbers from 0 to 2^31 - 257; a record is accepted exactly if its numbers are in the domains (`InDomains`) and it comes after the last one in lexicographic order; a refused record notes exactly one of three errors. `C88_raw_refused`: after a refused Start function no raw record is accepted. Missing: more than 2^31 - 257 elements; raw keys with negative or larger numbers, or outside of the bounds given to gdxDataWriteRawStartKeyBounds.

## 5. Disagreements between code and property

Each line is a theorem with a concrete witness (or a general refutation) in `Verif/Props`.

| property | what the code does | theorem |
|---|---|---|
| C01 | a first record whose key entries are all -256 is taken for "no previous record"; negative first keys are shifted (raw mode does not check element numbers) | `C01_initial_key_lost`, `C01_negative_key_shifted` |
| C02 | renaming an element while a symbol is written in string mode: the last string of a position is remembered with its number, so the old name still finds the renamed element | `C02_rename` |
| C07 | index written in seven pieces: when only the mark and some positions arrive the file opens without relaxed domains, or with an append position of 0 so that appending overwrites the header | `C07_window`, `C07_next` |
| C08 | appended data overwrite the old tables before the new ones exist: after a crash the file does not open | `C08_tables` |
| C09 | Start functions assign state before the mode check; a refused gdxDataReadRawStart while writing makes gdxClose write no tables; gdxDataReadDone without a file makes it impossible to open one; callback readers ignore the refusal | `C09_start`, `C09_lost`, `C09_done_lost`, `C09_done_closed`, `C09_fast` |
| C10 | opening resets the counter; a failed open sets the last error without counting it | `C10_reset_counterexample`, `C10_failed_open_counterexample` |
| C12 | gdxUELRegisterMap accepts a used user index for another string | `C12_counterexample` |
| C15 | of two equal stored strings (damaged file) the second is found; RenameEntry is off by one in 0-based lists | `C15_duplicates`, `C15_rename_zero_based` |
| C16 | adding a record after sorting dereferences null | `C16_add_after_sort` |
| C18 | clearing a bit clears its byte (`&= !M`); the highest index overflows | `C18_clear_clears_neighbour`, `C18_limit` |
| C20 | setting the position before the compression flag drops the buffer (never done by the library) | `C20_order_matters` |
| C22 | the mapped reader relies on the caller's key array being kept between calls; element numbers beyond the table are undefined | `C22_fresh`, `C22_beyond`, `C22_mixed` |
| C23 | two elements with one user number: streaming and sorting differ | `C23_reuse` |
| C24 | mapped reading of the universe uses the previous key of another read | `C24_universe_stale` |
| C25 | no check against sets that came from an appended file, or when domain sets are not stored | `C25_append_counterexample`, `C25_off_counterexample` |
| C26 | relaxed domain names come back in the first spelling, `*` for refused names, scalars ignored | `C26_spelling`, `C26_refused`, `C26_scalar` |
| C31 | acronym indices from 17976932 on overflow to infinity; NaN is converted to int | `C31_overflow`, `C31_nan` |
| C32 | numbers of unnamed acronyms can collide with others | `C32_clash`, `C32_collision`, `C32_changed` |
| C35 | a comment of more than 255 bytes is stored without terminating 0 | `C35_long` |
| C36 | gdxDataReadRawFastFilt with twenty fixed positions violates an assertion | `C36_filt_counterexample` |
| C37 | several records can be written for a scalar; mapped reader of a scalar after a sorted mapped read uses the deleted sort list | `C37_counterexample`, `C37_mapped_stale` |
| C38 | GmsDouble loses low bits; GmsInteger of INT_MIN and strings over 255 bytes are undefined | `C38_gmsDouble_lossy`, `C38_excluded` |
| C39 | offsets from 2^31 on index the password out of bounds; a password of one byte scrambles nothing | `C39_large_offset`, `C39_one_byte_password` |
| C42 | gdxAcronymSetInfo/GetMapping check `N >= 1 \|\| N <= size`; queries with nothing open use null tables; callback readers do not check the symbol number; 64-byte buffers | `C42_acronym_counterexample`, `C42_acronym_unchecked`, `C42_closed_counterexample`, `C42_acronym_name_counterexample`, `C42_reader_counterexample` |
| C44 | repeated domain violations are dropped from the error list | `C44_counterexample` |
| C45 | a session that appends does not know what is not in the file: user numbers, chosen special values, errors counted so far, domain checks; the current symbol for comments is the last one read, and unnamed acronyms have got names | `C45_userNrs_counterexample`, `C45_special_counterexample`, `C45_errors_counterexample`, `C45_domain_counterexample`, `C45_comment_counterexample`, `C45_acronym_counterexample` |
| C47 | gdxClose directly after a Start call or while registering elements writes no tables | `C47_counterexample`, `C47_counterexample_register` |
| C48 | after reading a file and closing it, an object that opens a new file for writing still has CurSyPtr (freed record, used by gdxSymbolAddComment with number 0), the element count of the old file in gdxSymbolInfoX(0), and the last key of a mapped read | `C48_dangling`, `C48_count`, `C48_universe` |
| C49 | record count of a scalar with several records is 1; of an alias 0 | `C49_counterexample`, `C49_alias_counterexample` |
| C53 | bounds given in advance that do not hold make the file wrong | `C53_outside_bounds` |
| C58 | a value that is infinite in the sense of IEEE 754 (never written by the library) differs from itself | `C58_infinite` |
| C59 | the default record of an equation is taken from row UserInfo (53 to 59) of a table with 7 rows; with DiffOnly a symbol of dimension 19 needs 21 strings in an array of 20; reading a scalar without record after a sorted symbol uses a deleted list | `C59_equation`, `C59_equation_file`, `C59_diffonly`, `C59_scalar` |
| C60 | a file with one changed byte is accepted and then: dimension 21 overruns arrays of 20, type 9 reads behind a table, an alias of itself is followed for ever, an alias or domain number out of range reads behind the table (in one case while opening), a record position 0 violates an assertion, a bound makes an element overflow, a missing end is read past the file, a label of 64 bytes overruns a buffer | `C60_entry`, `C60_alias`, `C60_domain`, `C60_record`, `C60_label` |
| C61 | gdxmerge: two input files with the same name (ignoring case) get the same identifier, the records of the second with a key of the first are lost without an error | `C61_same_name`, `C61_same_name_case` |
| C61 | gdxmerge: a symbol that has the name of an acronym of an earlier file is lost without an error | `C61_acronym` |
| C61 | gdxmerge: the names in ID= and EXCLUDE= are compared with case | `C61_id_case` |
| C62 | gdxmerge BIG: the inner loop of CollectBigOne starts at FDim - 1 = -1 for a scalar and runs to `D <= SyDim`, two too far: undefined for scalars and 18 indices, the empty string becomes a label | `C62_scalar`, `C62_wide`, `C62_empty_label` |
| C62 | gdxmerge BIG: dimension, type and subtype are not compared | `C62_types` |
| C62 | gdxmerge BIG: the explanatory text of a big symbol is lost (it is not set in CollectBigOne) | `C62_text` |
| C62 | gdxmerge BIG with ID=: the name is looked up before the selection is checked, so a symbol of an earlier file that is written in another case is taken with BIG and left out without it | `C62_select` |
| C62 | gdxmerge BIG: a symbol with 20 indices is counted as an error in each of the two passes | `C62_twice` |
| C62 | gdxmerge BIG: if one input file cannot be opened, CollectBigOne returns before gdxUELRegisterDone; the output stays in the state for registering labels, so the symbol, the list of files and the tables of the file are not written. The output cannot be opened, the count of errors is 0 and the program returns 0 | `C62_unreadable` |
| C63 | getSCHashSize runs through its sizes downwards, so that the table never has more than 77317 chains (slow, not wrong) | `C63_size` |
| C64 | TXSortedStringList::IndexOf(S, len) of a list that is not marked as sorted calls itself without end | `C64_index` |
| C65 | TXList with OneBased: Delete of the last but one takes out the last, Remove takes out the item before or none (never used by the library) | `C65_delete_one`, `C65_remove_one` |
| C66 | with DecimalSep=comma, a number written with an exponent keeps its decimal point | `C66_comma_ignored`, `C66_comma_counterexample` |
| C66 | the text of an infinite value or NaN is undefined: the buffer is not terminated | `C66_undefined` |
| C67 | gdxdump accepts Delim=period while the decimal separator is a period: 1.5 becomes two fields (gdxdump.cpp:1322 tests `Delim != '.'`) | `C67_period` |
| C68 | GetDomainNames compares a name with the columns before except the nearest: symbol x(i,i) gets two columns i | `C68_neighbours` |
| C69 | with CDim, an element number above the number of labels is marked outside the allocated table (gdxdump.cpp:701) | `C69_no_label` |
| C70 | an element text that starts with a quote and has no special character is written without quotes: `'a'` is read as a, `'tis` has no end (gdxdump.cpp WriteQUELText) | `C70_quote` |
| C70 | the comment of a scalar is written behind the slash, `Scalar s /* a`, and read as data; a newline in a comment ends it and the rest is read as data | `C70_comment` |
| C70 | the types of equations in files (53 to 59) are not known: `Logic` is never written | `C70_logic` |
| C70 | Delim=comma also applies to the GAMS format: labels of one element are read as elements | `C70_delim` |
| C71 | WriteAcronyms counts from 0, the library from 1: an acronym without name, and the last one is missing | `C71_acronyms` |
| C72 | MatrixFile: element numbers of the file (from 1) are looked up in the table of labels of the program (from 0, starting with ins1, ins2, dif1, dif2): wrong labels | `C72_matrix` |
| C72 | the difference file has the values of acronyms but not their names (CopyAcronyms is commented out) | `C72_acronym` |
| C72 | the second choice for the name of the list of files is FilesCompared951, `std::to_string('_')` being "95" (no violation) | `C72_name` |
| C72 | an alias that differs becomes a set whose subtype is the number of a symbol of file 1 (no violation) | `C72_alias` |
| C73 | an argument with `@` inside, e.g. the file name a@b.gdx, is taken for a parameter file from there on | `C73_at` |
| C73 | an argument with `=` is cut in two words: file name a=b.gdx | `C73_equals` |
| C73 | a stray `=` (DiffOnly = Y) ends the list of parameters: the rest of the line is lost without a message | `C73_stray` |
| C73 | a parameter with an empty value (`ID=`) takes the next argument for its value | `C73_swallow` |
| C73 | bytes from 128 on at the start of an argument are skipped as white space: é.gdx becomes .gdx (signed char) | `C73_utf8` |
| C73 | parameter files: the rest of a line is lost after two blanks, a line that starts with a blank is ignored | `C73_blanks` |
| C73, C74 | a value with more than 255 bytes is copied into a ShortString of 256 bytes without a check: undefined behaviour | `C73_value_long`, `C74_long` |
| C74 | ".gdx" appended to the name of a difference file of 252 to 255 bytes: the same | `C74_longname` |
| C74 | a misspelled option is not noticed: `gdxdiff a b Esp=0.1` compares without tolerance and writes Esp.gdx; further words, and an option without a value at the end, are ignored | `C74_misspelled`, `C74_ignored`, `C74_novalue` |
| C75 | ID and Exclude both given: the existing output file is deleted before the error is reported | `C75_deleted` |
| C75 | strict mode: a missing input file is noticed after the output file has been begun; the file stays, and the next run fails because it exists | `C75_begun` |
| C75 | `id=x, y` as it is written in the usage text (without quotes) makes `y` a file pattern | `C75_blank` |
| C75 | strict=false after strict=true has no effect; strict=yes is ignored without a message | `C75_strict` |
| C75 | big=1e6 is ignored without a message (10000000 is used), big=5000000000 becomes 705032704 | `C75_big` |
| C75 | `big` without a value at the end of the line is an empty file pattern | `C75_novalue` |
| C75 | a file that two patterns match is taken twice with the same label | `C75_twice` |
| C75, C76 | a number with more than 255 bytes: a buffer of 256 bytes is overrun | `C75_long`, `C76_long` |
| C76 | 2147483648 and 4294967297 are accepted, with the values -2147483648 and 1 (the result of strtol is cut to 32 bits) | `C76_range` |
| C76 | hexadecimal digits after $ may not start with a small letter ($ff), after 0x they may; $0x10 is accepted | `C76_small`, `C76_prefix` |
| C77 | EncodeDate before March 1600 is wrong: 1 January 1600 becomes 2 (1 January 1900) | `C77_1600` |
| C77 | EncodeDate + EncodeTime (FileDateToDateTime) for times before 1900 is decoded to another day and time | `C77_1800` |
| C77 | FindFirst cuts the time of a file to 32 bits: files after 19 January 2038 get a date in 1901 | `C77_2038` |
| C77 | DecodeTime gives hour 24 less than half a millisecond before midnight | `C77_midnight` |
| C78 | StrToInt64 computes `10 * result + s[i] - '0'` from the left: signed overflow for the 48 largest int64 and for the 49 smallest ones, which IntToStr writes correctly | `C78_max`, `C78_limit`, `C78_min` |
| C78 | IntToHex fills up to one place less than the width (`w + i > MAXW`) | `C78_hex_width` |
| C78 | IntToHex of a negative number writes outside of its array (`v >>= 4` never becomes 0) | `C78_hex_negative` |
| C78 | IntegerWidth of the smallest int overflows | `C78_width_min` |
| C78 | ExcelColStr gives the letters in reverse order (28 is "BA" instead of "AB") | `C78_excel` |
| C78 | StrExcelCol tests for overflow too late (`maxint / 26 + 26`) | `C78_col_overflow` |
| C79 | after an empty value (`EpsOut= Format=csv`) gdxdump takes the next argument up to its equal sign as the value | `C79_swallow` |
| C79 | the part after the equal sign of a value (`Symb x=y`) is ignored if it comes last | `C79_ignored` |
| C79 | every value of CDim, FilterDef and IDE that does not begin with y or 1 means no | `C79_maybe` |
| C79 | dFormat can be given twice if the first value is `normal` | `C79_again` |
| C79 | an argument of more than 255 bytes is copied into a ShortString: undefined behaviour | `C79_long` |
| C80 | the first acronym is declared without a name (C71), so the output for a file with acronyms is no program | `C80_acronyms` |
| C80 | after the alias of a set without index an empty list ` / /;` follows | `C80_alias0` |
| C80 | DecimalSep=comma is accepted with Format=normal; `1,5` is not one number in GAMS | `C80_sep` |
| C81 | the column of the type has four places, `Alias` has five letters: the rest of the line of an alias is shifted by one | `C81_alias` |
| C81 | SetText looks at the symbols 0 (the universe) to n-1, so the texts of the last symbol are not counted in the greatest number | `C81_last` |
| C82 | for the alias of a set without index an empty statement ` ;` is written | `C82_alias0` |
| C82 | DecimalSep=comma and Delim=semicolon (also blank and tab) are accepted with Format=gamsbas; the output is no program | `C82_sep`, `C82_delim` |
| C83 | with NoData a comment of a symbol is written into the line of its declaration and becomes its explanatory text | `C83_comment` |
| C83 | with NoData an explanatory text with `!!` is not quoted though `!!` begins a comment; the declaration has no end | `C83_bang` |
| C83 | acronyms: the first one is declared without a name | `C83_acronyms` |
| C84 | `Output=` may name the input file: it is emptied, and with an option that reads no records replaced by the list, exit code 0 (gdxdump.cpp:1397) | `C84_clobber` |
| C84 | UelTable with Format=csv writes the elements with the quotes of GAMS and two blanks in front; `a,b` is no CSV field. It needs a Symb, which is not used | `C84_uels` |
| C84 | the lists (Symbols, DomainInfo, ...) begin with declarations of acronyms if the file has some | `C84_list_acronyms` |
| C85 | the output may be an input file: gdxdiff.cpp:1123-1124 says that the input file is kept since it cannot be deleted while it is open, but unlink can on POSIX; the input is replaced by the difference file | `C85_input` |
| C85 | the output has the name of the temporary file, `tmpdifffile1.gdx`: the finished difference file is deleted as an older file of that name, nothing is left (gdxdiff.cpp:1128-1146) | `C85_temporary` |
| C85 | the older difference file is deleted before the new one is renamed; if rename fails (another file system), it is lost | `C85_stuck` |
| C86 | with BIG every input file is counted twice: two files give `Merge complete, 4 input files merged` (InputFilesRead is increased in both passes) | `C86_count`, `C86_big_partial` |
| C86 | the only input is the output file: it is deleted and replaced by a file without symbols, exit code 0 | `C86_input` |
| C86 | exit code 0 if no input file can be read, or if symbols are left out because they do not agree; in strict mode 0 if at least one of the files can be read | `C86_none`, `C86_errors`, `C86_unread` |
| C87 | a Start function that is refused while records are being written sets CurSyPtr to null, and gdxClose dereferences it; a comment of more than 255 bytes is accepted, but closing the file then reads outside of a buffer | `C87_start`, `C87_comment` |
| C87 | the same for the name or the text of an acronym: gdxAcronymAdd accepts any length, WriteString writes length + 1 bytes from a buffer of 256 bytes (gmsstrm.cpp:241-254) | `C87_acronym` |
| C88 | a Start function that is refused while records are collected frees the sort list (gxfile.cpp:733-735); the next gdxDataWriteMap or gdxDataWriteStr dereferences a null pointer; in raw mode CurSyPtr is null when the next record is accepted | `C88_start`, `C88_raw_start` |
