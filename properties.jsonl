{"id": "C01", "title": "Raw write / raw read round trip", "statement": "If a symbol of dimension 0..20 is written with gdxDataWriteRawStart/gdxDataWriteRaw/gdxDataWriteDone using keys that are strictly increasing in lexicographic order (element numbers from 1 to 2^31-257), then gdxDataReadRawStart/gdxDataReadRaw on the finished file delivers exactly those keys, in the same order, each with the stored form of its values, followed by 'no more records'.", "quantifier": "for every dimension, every data type (set/parameter/variable/equation), every finite sequence of strictly increasing key tuples with entries in 1..2^31-257 and every double bit pattern in the values", "why_tests_cant": "The record encoding is a delta code whose bytes depend on the previous key, on the smallest and largest key per position and on the value class; the combinations are unbounded and a test only visits a few of them.", "anchors": ["src/gxfile.cpp: TGXFileObj::DoWrite, InitDoWrite, DoRead, PrepareSymbolRead, gdxDataWriteRaw, gdxDataReadRaw"]}
{"id": "C02", "title": "String-mode writing is independent of the order of the calls", "statement": "Records written with gdxDataWriteStr in any order are stored sorted by the element numbers (lexicographically, position 1 first), each distinct key exactly once with the values of the first record written for it; every further record with the same key is not stored and is counted once as a duplicate error.", "quantifier": "for every dimension >= 1, every list of string keys accepted by the UEL rules in any order with any repetitions and any values", "why_tests_cant": "The claim ranges over all permutations and all multiplicities of unbounded record lists.", "anchors": ["src/gxfile.cpp: gdxDataWriteStr, gdxDataWriteDone, DoWrite", "src/datastorage.hpp: TLinkedData::AddItem, Sort, IsSorted"]}
{"id": "C03", "title": "Mapped-mode writing equals raw writing of the translated keys", "statement": "A symbol written in mapped mode holds, for every accepted record, the internal element number registered for each user index; a record with a user index that was never registered is rejected with a bad-element-index error, returns 0 and leaves the stored data unchanged; the result is sorted and duplicate free as in string mode.", "quantifier": "for every registration history of user indices and every list of mapped records", "why_tests_cant": "Depends on the whole history of registrations and on unbounded lists of records.", "anchors": ["src/gxfile.cpp: gdxDataWriteMap, gdxDataWriteMapStart, gdxDataWriteDone, TUELTable::UsrUel2Ent, TIntegerMapping::GetMapping"]}
{"id": "C04", "title": "Values survive the file bit for bit, special values survive by meaning", "statement": "Reading back a value gives: for a user special value (undef, NA, +inf, -inf, eps) the reader's special value of the same kind, whatever tables writer and reader use; for 0, 1, -1, 0.5 and 2 the same number (negative zero becomes zero); for IEEE infinities the special +inf/-inf; for any IEEE NaN the special NA; for any other finite double below the acronym threshold the same 64 bits.", "quantifier": "for all 2^64 bit patterns of the value, all legal writer special-value tables and all reader tables", "why_tests_cant": "2^64 inputs times all special-value tables; only a case analysis over bit patterns settles it.", "anchors": ["src/gxfile.cpp: DoWrite (value part), DoRead, dblInfo, copyIntlMapDblToI64, gdxSetSpecialValues, gdxSetReadSpecialValues, gdxResetSpecialValues"]}
{"id": "C05", "title": "Special-value tables are always unambiguous", "statement": "gdxSetSpecialValues succeeds exactly when the given undef, NA, +inf, -inf and eps values are pairwise different (as bit patterns); on failure nothing changes; after success gdxGetSpecialValues returns what was set and gdxMapValue classifies each of the five values as its own kind and every value that equals none of them and lies below the acronym limit as normal.", "quantifier": "for all 5-tuples of 64-bit patterns and all classified values", "why_tests_cant": "The input space is 2^320; uniqueness interacts with fixed table entries (0, 1, -1, 0.5, 2).", "anchors": ["src/gxfile.cpp: gdxSetSpecialValues, gdxGetSpecialValues, gdxResetSpecialValues, gdxMapValue"]}
{"id": "C06", "title": "Everything written before gdxClose is there after gdxOpenRead", "statement": "After gdxClose and gdxOpenRead the reader reports the same number of symbols and UELs, the same UEL strings under the same numbers, and for each symbol the same number, name, dimension, type, user info, explanatory text, record count, comments and domain information, the same set texts under the same text numbers, and the same acronyms.", "quantifier": "for every legal history of write-mode API calls between gdxOpenWrite and gdxClose", "why_tests_cant": "Quantifies over all histories of API calls, hence over all file layouts.", "anchors": ["src/gxfile.cpp: gdxClose, gdxOpenReadXX, gdxOpenWriteEx, TUELTable::SaveToStream/LoadFromStream, TAcronymList::SaveToStream/LoadFromStream", "src/gdlib/strhash.hpp: SaveToStream, LoadFromStream"]}
{"id": "C07", "title": "A crash while creating a file never yields a file that opens with wrong content", "statement": "If the process that creates a file with gdxOpenWrite dies at any moment, so that only some initial part of the byte writes reached the file (in issue order), then gdxOpenRead on what is left either fails with an error or the close had already written the complete index and the file has the complete content.", "quantifier": "for every write history and every crash point (every prefix of the sequence of byte writes)", "why_tests_cant": "The number of crash points and histories is unbounded; tests cannot stop the process between two arbitrary bytes.", "anchors": ["src/gxfile.cpp: gdxOpenWriteEx (reserved zero index), gdxClose (index written last), gdxOpenReadXX (ERR_OPEN_BOI and marker checks)"]}
{"id": "C08", "title": "A crash while appending keeps the old symbols readable", "statement": "If a file is opened with gdxOpenAppend and the process dies at any moment before gdxClose returns, gdxOpenRead on the file still succeeds and every symbol that was in the file before is read back unchanged.", "quantifier": "for every existing file, every append history and every crash point", "why_tests_cant": "Needs all crash points; the outcome depends on which bytes of the old tables were already overwritten.", "anchors": ["src/gxfile.cpp: gdxOpenAppend, NextWritePosition handling in gdxOpenReadXX, gdxClose"]}
{"id": "C09", "title": "Calls in the wrong mode are refused without side effects", "statement": "Every API function that is only legal in certain modes returns 0 (or its documented failure value) when called in any other mode, raises exactly one error, and leaves the data, the tables, the file and the current mode unchanged.", "quantifier": "for every API function, every mode and every state reachable by any history of calls", "why_tests_cant": "All (function, mode, state) combinations over all histories.", "anchors": ["src/gxfile.cpp: MajorCheckMode, CheckMode, ReportError, SetError and the mode sets AnyReadMode, AnyWriteMode, and each API function"]}
{"id": "C10", "title": "The error register keeps the first error and the counter counts all", "statement": "gdxGetLastError returns the first error raised since the previous gdxGetLastError call (0 if none) and clears it; gdxErrorCount never decreases and grows by exactly one for each error raised.", "quantifier": "for every interleaving of failing and succeeding calls", "why_tests_cant": "A property of all histories of calls.", "anchors": ["src/gxfile.cpp: SetError, ReportError, ErrorCondition, gdxGetLastError, gdxErrorCount, InitErrors"]}
{"id": "C11", "title": "UEL strings are unique, densely numbered and never renumbered", "statement": "At every moment the UEL table contains no two strings that are equal up to ASCII case, its numbers are exactly 1..UelCnt, gdxUMUelGet and gdxUMFindUEL are inverse to each other, and no call other than gdxRenameUEL changes the string of an existing number.", "quantifier": "for every history of registration and write calls (raw, mapped and string modes)", "why_tests_cant": "An invariant over unbounded histories.", "anchors": ["src/gxfile.cpp: TUELTable::AddObject, AddUsrNew, AddUsrIndxNew, gdxUELRegisterRaw/Map/Str, gdxDataWriteStr, gdxUMUelGet, gdxUMFindUEL"]}
{"id": "C12", "title": "User index and UEL correspond one to one", "statement": "After any history of registrations, if gdxGetUEL(k) returns a UEL string s then gdxUMFindUEL(s) reports the user index k, and the other way round; gdxUELRegisterMap succeeds for a fresh (index, string) pair, succeeds without change for a repeated pair, and fails for a pair that contradicts an existing one.", "quantifier": "for every history of gdxUELRegisterMap, gdxUELRegisterStr and expanding reads", "why_tests_cant": "Invariant of two mutually inverse tables under all histories.", "anchors": ["src/gxfile.cpp: TUELTable::AddUsrIndxNew, AddUsrNew, NewUsrUel, TIntegerMapping, gdxUELRegisterMap, gdxGetUEL, gdxUMFindUEL"]}
{"id": "C13", "title": "gdxUELRegisterStr hands out the next higher user index", "statement": "Registering a string that is not yet in the user space returns the highest user index used so far plus one and raises the highest index to it; registering it again (also with other case or trailing blanks) returns the same index and changes nothing.", "quantifier": "for every registration history and every string accepted by the UEL rules", "why_tests_cant": "All histories; depends on interplay of mapped and string registration.", "anchors": ["src/gxfile.cpp: gdxUELRegisterStr, TUELTable::AddUsrNew, NewUsrUel, TIntegerMapping::HighestIndex"]}
{"id": "C14", "title": "Symbol names are legal, unique and found case-insensitively", "statement": "gdxDataWrite*Start accepts a name exactly when it is an identifier (letter first, then letters, digits, underscores, at most 63 characters), no existing symbol or acronym has the same name up to case, the dimension is 0..20 and the type is set, parameter, variable or equation; afterwards gdxFindSymbol with any capitalisation returns the number of the symbol, and distinct symbols have distinct names.", "quantifier": "for every history of symbol creations and every name", "why_tests_cant": "All names and histories.", "anchors": ["src/gxfile.cpp: IsGoodIdent, IsGoodNewSymbol, PrepareSymbolWrite, gdxFindSymbol"]}
{"id": "C15", "title": "Name lookup does not depend on the hash table", "statement": "Looking up a string in the UEL, symbol or text tables returns the same answer as a linear search with the table's comparison (ASCII case-insensitive, or exact for set texts), after any history of adding, storing, renaming, sorting and clearing, whatever the hash table sizes and re-hash moments were.", "quantifier": "for every operation history and every query string", "why_tests_cant": "Histories are unbounded and hash collisions/re-hash points depend on sizes far beyond a test.", "anchors": ["src/gdlib/strhash.hpp: TXStrHashList::Hash, HashTableReset, HashAll, AddObject, StoreObject, IndexOf, RenameEntry, TXCSStrHashList"]}
{"id": "C16", "title": "Record sorting is a stable lexicographic sort", "statement": "Sorting the record list yields a permutation of the records, non-decreasing in lexicographic order of the keys, with records of equal key in insertion order; the 'already sorted' shortcut never changes the result.", "quantifier": "for every dimension and every finite list of records with keys inside the recorded bounds", "why_tests_cant": "All lists of all lengths.", "anchors": ["src/datastorage.hpp: TLinkedData::AddItem, IsSorted, Sort, StartRead, GetNextRecord"]}
{"id": "C17", "title": "Integer mapping behaves as a total map with default -1", "statement": "Reading an index returns the last value stored for it, or -1 if none was stored; storing one index never changes another, also when the table grows; the highest index equals the maximum of 0 and all stored indices.", "quantifier": "for every sequence of store operations with non-negative indices within the memory limit", "why_tests_cant": "Growth steps depend on unbounded histories.", "anchors": ["src/gxfile.cpp: TIntegerMapping::growMapping, SetMapping, GetMapping, GetHighestIndex"]}
{"id": "C18", "title": "Bit sets hold exactly the elements put in", "statement": "After any sequence of setting and clearing bits, membership of an index is decided by the last operation on exactly that index; operations on one index never influence another.", "quantifier": "for every operation history and every index", "why_tests_cant": "All histories of a growing packed bit array.", "anchors": ["src/gdlib/gmsobj.cpp: TBooleanBitArray::SetBit, GetBit, SetHighIndex", "src/gdlib/gmsobj.hpp", "src/gxfile.cpp: gdxFilterRegister, gdxGetDomainElements, DoWrite (SSetBitMap)"]}
{"id": "C19", "title": "The buffered stream is a transparent byte file", "statement": "Any sequence of read, write and seek operations on the buffered (uncompressed) stream returns the same bytes and positions, and after flushing leaves the same file, as performing the operations directly on an unbuffered byte file.", "quantifier": "for every sequence of operations with every length and position and every buffer size", "why_tests_cant": "All interleavings of reads, writes and seeks around buffer boundaries.", "anchors": ["src/gdlib/gmsstrm.cpp: TBufferedFileStream::Read, Write, FillBuffer, FlushBuffer, SetPosition, GetPosition"]}
{"id": "C20", "title": "Compression does not change the data", "statement": "Data written with compression switched on is read back identical with decompression switched on, block by block, whether or not individual blocks were stored compressed.", "quantifier": "for every sequence of writes and every codec whose decompression inverts its compression", "why_tests_cant": "All data contents and block splits.", "anchors": ["src/gdlib/gmsstrm.cpp: TBufferedFileStream::FlushBuffer, FillBuffer, SetCompression, TCompressHeader"]}
{"id": "C21", "title": "Files are portable between byte orders", "statement": "A stream written on a machine of the other byte order is read with the same integer and double values; the byte-order marks in the header decide correctly whether bytes are swapped, and a stream with inconsistent marks is rejected.", "quantifier": "for every word, integer, 64-bit integer and double value", "why_tests_cant": "All 2^64 values; needs the other hardware.", "anchors": ["src/gdlib/gmsstrm.cpp: TMiBufferedStream::DetermineByteOrder, ReverseBytes, reverseBytesMax8, GoodByteOrder, ReadInteger, ReadWord, ReadInt64, ReadDouble"]}
{"id": "C22", "title": "Filtered reading delivers exactly the matching records", "statement": "gdxDataReadFilteredStart followed by gdxDataReadMap delivers exactly the stored records whose every index satisfies the action of its position (unmapped: always; strict: has a user index; expand: always; filter number: has a user index that is in the filter), with keys translated by the action, in lexicographic order of the delivered keys; all other records are not delivered.", "quantifier": "for every symbol content, user mapping and vector of filter actions", "why_tests_cant": "All contents, mappings and actions.", "anchors": ["src/gxfile.cpp: PrepareSymbolRead, gdxDataReadFilteredStart, gdxDataReadMap, TDFilter::InFilter"]}
{"id": "C23", "title": "Streaming and sorting mapped reads agree", "statement": "When the reader decides that no sorting is needed, the streamed records come in the same order as the sorted path would deliver them: the shortcut is taken only if the translated keys are in non-decreasing lexicographic order.", "quantifier": "for every user mapping, every filter vector and every symbol content", "why_tests_cant": "The shortcut depends on the complete history of user mappings.", "anchors": ["src/gxfile.cpp: ResultWillBeSorted, TUELTable::GetMapToUserStatus, gdxDataReadMap (fr_mapr_data)"]}
{"id": "C24", "title": "First-changed-dimension is exact", "statement": "The DimFrst result of each record reader is the smallest index position in which the delivered key differs from the previously delivered key of this read (1 for the first record when the dimension is positive).", "quantifier": "for every symbol content and every read mode", "why_tests_cant": "All contents.", "anchors": ["src/gxfile.cpp: DoRead (AFDim), gdxDataReadRaw, gdxDataReadStr, gdxDataReadMap"]}
{"id": "C25", "title": "Domain checking on write is exact", "statement": "When gdxSymbolSetDomain succeeded, a record is stored only if each of its indices is an element of the one-dimensional set named for that position ('*' admits all); any other record is refused with a domain-violation error and put in the error list with exactly the offending positions negated.", "quantifier": "for every domain set content, every record and every write mode", "why_tests_cant": "All set contents and records.", "anchors": ["src/gxfile.cpp: gdxSymbolSetDomain, DoWrite (WrBitMaps), AddToErrorList, accessBitMap"]}
{"id": "C26", "title": "Domain information is returned as it was given", "statement": "gdxSymbolGetDomainX returns 2 and the strings given to gdxSymbolSetDomainX if that was used, otherwise 3 and the names given to gdxSymbolSetDomain, otherwise 1 and all '*'; gdxSymbolGetDomain returns the symbol numbers of the real domain; both also after closing and reopening the file.", "quantifier": "for every history of domain definitions", "why_tests_cant": "All histories and names.", "anchors": ["src/gxfile.cpp: gdxSymbolSetDomain, gdxSymbolSetDomainX, gdxSymbolGetDomain, gdxSymbolGetDomainX, gdxClose, gdxOpenReadXX"]}
{"id": "C27", "title": "Slices are exact and densely indexed", "statement": "After gdxDataReadSliceStart the element count of each position is the number of distinct elements there, slice indices are 0..count-1 in order of element number, gdxDataSliceUELS maps each slice index back to its element, and gdxDataReadSlice calls back exactly for the records that match the fixed positions with the compressed indices of the free positions.", "quantifier": "for every symbol content and every choice of fixed positions", "why_tests_cant": "All contents and filters.", "anchors": ["src/gxfile.cpp: gdxDataReadSliceStart, gdxDataReadSlice, gdxDataSliceUELS"]}
{"id": "C28", "title": "gdxGetDomainElements enumerates the distinct elements once", "statement": "gdxGetDomainElements reports in NrElem the number of distinct elements occurring in the given position and calls the callback once for each of them.", "quantifier": "for every symbol content, position and filter", "why_tests_cant": "All contents.", "anchors": ["src/gxfile.cpp: gdxGetDomainElements"]}
{"id": "C29", "title": "Length queries are the true maxima", "statement": "gdxSymbIndxMaxLength, gdxUELMaxLength and gdxSymbMaxLength return the maximal length of the UEL strings used per position, of all UELs, and of all symbol names (0 if there are none).", "quantifier": "for every file content", "why_tests_cant": "All contents.", "anchors": ["src/gxfile.cpp: gdxSymbIndxMaxLength, gdxUELMaxLength, gdxSymbMaxLength"]}
{"id": "C30", "title": "Aliases resolve to their set and never cycle", "statement": "gdxAddAlias succeeds exactly when one identifier is a set, an alias or '*' and the other one is a new legal name; reading an alias delivers exactly the records of the set it stands for; following aliases always terminates.", "quantifier": "for every history of symbol and alias creation", "why_tests_cant": "All histories of alias chains.", "anchors": ["src/gxfile.cpp: gdxAddAlias, PrepareSymbolRead (alias loop), gdxSymbolInfoX"]}
{"id": "C31", "title": "Acronym value and acronym index are inverse", "statement": "gdxAcronymIndex(gdxAcronymValue(i)) = i for every positive acronym index, and gdxAcronymIndex is 0 for every value below the acronym limit.", "quantifier": "for every index 1..2^31-1 and every double", "why_tests_cant": "Floating-point multiplication and division over 2^31 indices and 2^64 values.", "anchors": ["src/gxfile.cpp: gdxAcronymValue, gdxAcronymIndex", "src/gdlib/utils.hpp: round"]}
{"id": "C32", "title": "Acronym table entries are unique and remapping is consistent", "statement": "Writing data containing an acronym value adds one table entry per distinct index; gdxAcronymAdd never creates two entries with the same name or the same index; while reading, two occurrences of the same stored index are always returned as the same user index and automatically assigned indices are fresh.", "quantifier": "for every history of acronym calls, writes and reads", "why_tests_cant": "All histories.", "anchors": ["src/gxfile.cpp: TAcronymList::CheckEntry, AddEntry, FindEntry, FindName, gdxAcronymAdd, gdxAcronymSetInfo, AcronymRemap, gdxAcronymNextNr"]}
{"id": "C33", "title": "Set texts are stored once and returned under their number", "statement": "gdxAddSetText returns for equal (normalised) texts the same number and for different texts different numbers; number 0 is the empty text; gdxGetElemText returns the normalised text for every number handed out, before and after reopening.", "quantifier": "for every history of added texts", "why_tests_cant": "All texts and histories.", "anchors": ["src/gxfile.cpp: gdxAddSetText, gdxGetElemText, TSetTextList", "src/gdlib/strhash.hpp: TXCSStrHashList"]}
{"id": "C34", "title": "Explanatory text normalisation is safe and idempotent", "statement": "Normalising an explanatory text keeps its length, leaves every non-quote printable byte unchanged, produces a text that contains at most one kind of quote and no control characters, and normalising again changes nothing; a text that is already legal is unchanged.", "quantifier": "for every byte string", "why_tests_cant": "All byte strings.", "anchors": ["src/gxfile.cpp: MakeGoodExplText, CanBeQuoted"]}
{"id": "C35", "title": "Symbol comments are kept in order", "statement": "gdxSymbolGetComment(n) returns the n-th comment line added to the symbol and fails for n outside 1..count; comments survive closing and reopening unchanged.", "quantifier": "for every history of added comments", "why_tests_cant": "All histories.", "anchors": ["src/gxfile.cpp: gdxSymbolAddComment, gdxSymbolGetComment, gdxClose, gdxOpenReadXX"]}
{"id": "C36", "title": "Callback readers deliver what the record loop delivers", "statement": "gdxDataReadRawFast and gdxDataReadRawFastEx (as long as the callback continues) call back with exactly the sequence of records that repeated gdxDataReadRaw calls deliver; gdxDataReadRawFastFilt with exactly the subsequence matching the fixed UELs.", "quantifier": "for every symbol content, filter and callback behaviour", "why_tests_cant": "All contents and all callbacks.", "anchors": ["src/gxfile.cpp: gdxDataReadRawFast, gdxDataReadRawFastEx, gdxDataReadRawFastFilt"]}
{"id": "C37", "title": "Scalars always read as exactly one record", "statement": "Reading a 0-dimensional symbol delivers exactly one record: the stored one if a record was written, otherwise the default record of its type (level, marginal, bounds and scale of the variable or equation type, with infinities given in the reader's special values).", "quantifier": "for every 0-dimensional symbol of every type and subtype", "why_tests_cant": "All types, subtypes and reader tables.", "anchors": ["src/gxfile.cpp: PrepareSymbolRead (SScalarFrst), DoRead, GetDefaultRecord, mapDefaultRecordValues"]}
{"id": "C38", "title": "Stream primitives round trip", "statement": "Every byte, word, 32-bit and 64-bit integer, double and short string (up to 255 bytes) written to the stream is read back identical and leaves the read position exactly behind it; the same holds for the variable-length GMS integer and GMS double encodings.", "quantifier": "for all values of each type and any continuation of the stream", "why_tests_cant": "All values; variable-length codes have many length classes.", "anchors": ["src/gdlib/gmsstrm.cpp: TXStream::WriteString/ReadString, TMiBufferedStream/TBufferedFileStream Write*/Read*, WriteGmsInteger, ReadGmsInteger, WriteGmsDouble, ReadGmsDouble"]}
{"id": "C39", "title": "Password scrambling is an involution at every position", "statement": "A stream written with a password and read with the same password from the same positions gives back the data, for any split of the data into reads and writes.", "quantifier": "for every password, data and partition into calls", "why_tests_cant": "All partitions.", "anchors": ["src/gdlib/gmsstrm.cpp: TXFileStream::ApplyPassWord, SetPassWord, RandString"]}
{"id": "C40", "title": "Renaming a UEL changes only that name", "statement": "gdxRenameUEL(old,new) succeeds exactly when old exists, new is a legal UEL and no UEL equal to new up to case exists; afterwards the element with the number of old is found under new, every other element is unchanged, and all stored records are unchanged.", "quantifier": "for every table content and every pair of names", "why_tests_cant": "All tables.", "anchors": ["src/gxfile.cpp: gdxRenameUEL, TUELTable::RenameEntry", "src/gdlib/strhash.hpp: RenameEntry"]}
{"id": "C41", "title": "Opening checks the structure of the file", "statement": "gdxOpenRead returns success only if header mark, product string, index mark and all table marks are in place and the version is supported; whenever it fails the object stays not-open and the documented error code for the first failing check is reported.", "quantifier": "for every byte content of the file", "why_tests_cant": "All byte strings, including truncated and corrupted files.", "anchors": ["src/gxfile.cpp: gdxOpenReadXX"]}
{"id": "C42", "title": "Numbers out of range are refused", "statement": "Symbol, UEL, text, acronym, comment and error-record numbers outside their documented ranges make the query return failure, with defined outputs and without any access outside the tables.", "quantifier": "for every integer argument and every table size", "why_tests_cant": "All integers, all states.", "anchors": ["src/gxfile.cpp: gdxSymbolInfo, gdxSymbolInfoX, gdxSymbolGetDomain, gdxUMUelGet, gdxGetUEL, gdxGetElemText, gdxAcronymGetInfo, gdxAcronymSetInfo, gdxAcronymGetMapping, gdxDataErrorRecordX, gdxSymbolGetComment"]}
{"id": "C43", "title": "Symbol 0 is the universe", "statement": "Reading symbol 0 delivers the UELs 1..n that were in the table when the file was opened, in order, as a one-dimensional set with value 0, and nothing else.", "quantifier": "for every UEL table", "why_tests_cant": "All tables.", "anchors": ["src/gxfile.cpp: PrepareSymbolRead (SyNr=0), DoRead (ReadUniverse), gdxSymbolInfo, gdxSymbolInfoX"]}
{"id": "C44", "title": "The error list contains exactly the refused records", "statement": "After a write operation gdxDataErrorCount is the number of records refused because of duplicates, order or domain violations (up to the documented cap on stored records), gdxDataErrorRecordX returns them in the order of refusal with domain violations marked by a negative index, and gdxDataErrorRecord the same with positive indices.", "quantifier": "for every list of records", "why_tests_cant": "All histories.", "anchors": ["src/gxfile.cpp: AddToErrorList, AddToErrorListDomErrs, gdxDataErrorCount, gdxDataErrorRecord, gdxDataErrorRecordX"]}
{"id": "C45", "title": "Appending equals writing in one go", "statement": "Writing some symbols, closing, reopening with gdxOpenAppend, writing more symbols and closing gives a file with the same observable content as writing all the symbols in one session; symbols already present are never replaced.", "quantifier": "for every pair of write histories", "why_tests_cant": "All pairs of histories.", "anchors": ["src/gxfile.cpp: gdxOpenAppend, gdxOpenReadXX, gdxClose"]}
{"id": "C46", "title": "Trailing blanks in UELs are irrelevant, leading blanks are not", "statement": "Element strings are compared and stored without trailing blanks and control characters; a string is accepted exactly when the trimmed string has fewer than 64 bytes, no control characters and does not mix single and double quotes.", "quantifier": "for every byte string", "why_tests_cant": "All byte strings.", "anchors": ["src/gxfile.cpp: gdxDataWriteStr, gdxUELRegisterRaw, gdxUELRegisterStr, gdxUELRegisterMap, GoodUELString, CanBeQuoted", "src/gdlib/utils.cpp: trimRight"]}
{"id": "C47", "title": "Closing in the middle of a write finishes the symbol", "statement": "gdxClose called while a symbol is being written gives the same file as gdxDataWriteDone followed by gdxClose.", "quantifier": "for every write state, including the state directly after a Start call", "why_tests_cant": "All reachable states.", "anchors": ["src/gxfile.cpp: gdxClose, gdxDataWriteDone"]}
{"id": "C48", "title": "A closed object is as good as new", "statement": "gdxClose on an object that is not open does nothing and reports the pending error; after gdxClose of an open file the object can be used for another open with no influence of the previous file on symbols, UELs, texts, acronyms, filters or data.", "quantifier": "for every history before the close", "why_tests_cant": "All histories.", "anchors": ["src/gxfile.cpp: gdxClose, gdxOpenWriteEx, gdxOpenReadXX"]}
{"id": "C49", "title": "Record counts are truthful", "statement": "The record count reported for a symbol by gdxSymbolInfoX and by the read Start functions equals the number of records the raw reader delivers for it (0-dimensional symbols: 1 default record also when nothing was written).", "quantifier": "for every file produced by the library", "why_tests_cant": "All contents.", "anchors": ["src/gxfile.cpp: gdxDataWriteDone, gdxSymbolInfoX, PrepareSymbolRead"]}
{"id": "C50", "title": "String reads translate raw reads", "statement": "gdxDataReadStr delivers for each record of the raw read, in the same order and with the same values, the UEL strings of its element numbers.", "quantifier": "for every file content", "why_tests_cant": "All contents.", "anchors": ["src/gxfile.cpp: gdxDataReadStr, gdxDataReadStrStart"]}
{"id": "C51", "title": "Raw writing refuses unsorted and duplicate records", "statement": "In raw mode a record that is lexicographically smaller than the last stored one is refused as not sorted, one that is equal is refused as duplicate, and every greater one is stored; refused records do not disturb the records stored before or after them.", "quantifier": "for every sequence of raw records", "why_tests_cant": "All sequences.", "anchors": ["src/gxfile.cpp: DoWrite, gdxDataWriteRaw"]}
{"id": "C52", "title": "Text node numbers are set at most once", "statement": "gdxSetTextNodeNr stores the node number of a text exactly if the text number is valid and no node was assigned to it before, and gdxGetElemText returns it; other texts are not affected.", "quantifier": "for every history of text and node calls", "why_tests_cant": "All histories.", "anchors": ["src/gxfile.cpp: gdxSetTextNodeNr, gdxGetElemText, gdxAddSetText"]}
{"id": "C53", "title": "Key bounds given in advance do not change the data", "statement": "Writing in raw mode with gdxDataWriteRawStartKeyBounds and bounds that contain all keys gives the same observable data as gdxDataWriteRawStart.", "quantifier": "for every record sequence and every choice of valid bounds", "why_tests_cant": "All sequences and bounds.", "anchors": ["src/gxfile.cpp: gdxDataWriteRawStartKeyBounds, InitDoWrite, DoWrite"]}
{"id": "C54", "title": "Set-text flag is exact", "statement": "gdxSetHasText returns non-zero for a set exactly when some stored record of it carries a non-zero text number, also after reopening.", "quantifier": "for every set content", "why_tests_cant": "All contents.", "anchors": ["src/gxfile.cpp: DoWrite (SSetText), gdxSetHasText, gdxClose, gdxOpenReadXX"]}
{"id": "C55", "title": "Old files: delta codes of format version 6 and earlier are decoded with their own threshold", "statement": "Records written by a version 6 (or older) writer, which uses the fixed threshold 10 for delta codes instead of the symbol dimension, are read back unchanged by the current reader.", "quantifier": "for every record sequence of dimension 1..10", "why_tests_cant": "All record sequences; no old writer is available in tests.", "anchors": ["src/gxfile.cpp: PrepareSymbolRead (DeltaForRead), DoRead"]}
{"id": "C56", "title": "gdxdiff compares numbers as documented", "statement": "Two values are reported as different exactly when they differ by more than the tolerances: without tolerances exactly when their values differ; with an absolute tolerance when |a-b| exceeds it; special values are equal to the same special value only (EPS also to numbers within the absolute tolerance), acronyms when their names agree ignoring case. The comparison is symmetric, accepts more for larger tolerances, and every finite value equals itself.", "quantifier": "for all pairs of doubles, all tolerances, all special-value tables and acronym tables", "why_tests_cant": "All pairs of 2^64 bit patterns and all tolerances; rounding of the difference.", "anchors": ["src/tools/gdxdiff/gdxdiff.cpp: DoublesEqual"]}
{"id": "C57", "title": "gdxdiff reports no difference exactly when the contents agree", "statement": "gdxdiff ends with an empty status table if and only if the two files have the same content: the same selected identifiers ignoring case, and for each identifier the same type, dimension and (if asked for) domains, for equal keys (compared as labels ignoring case, or as element numbers with IgnoreOrder) compared fields that are equal in the sense of C56 and equal texts (if asked for), and no record on only one side, except records that are negligible (default values, when ShowDefRec is off). It ends if the contents agree. The order of elements, symbols and records, compression and special-value encodings do not matter.", "quantifier": "for every pair of files written by the library and all options", "why_tests_cant": "All pairs of files, orders of elements and records, tolerances and options.", "anchors": ["src/tools/gdxdiff/gdxdiff.cpp: main, CompareSy, ShowInsDel, DoublesEqual, CheckParDifference, CheckSetDifference, CheckVarDifference"]}
{"id": "C58", "title": "gdxdiff finds no difference between a file and itself", "statement": "If gdxdiff is given the same file twice, it ends with an empty status table (exit code 0, 'No differences found') and writes nothing but the table of compared files into the difference file.", "quantifier": "for every file content, all options, non-negative tolerance", "why_tests_cant": "All file contents and all values.", "anchors": ["src/tools/gdxdiff/gdxdiff.cpp: main, OpenGDX, CompareSy, GetAsText"]}
{"id": "C59", "title": "gdxdiff stays inside its arrays", "statement": "While comparing two files that the library accepts, gdxdiff reads and writes only inside its tables (default records of variables and equations), key and string arrays, and uses no deleted lists of the readers.", "quantifier": "for every pair of files and all options", "why_tests_cant": "All pairs of files; most out-of-bounds reads go unnoticed in a test.", "anchors": ["src/tools/gdxdiff/gdxdiff.cpp: CompareSy, WriteDiff", "src/gxfile.cpp: gdxDataReadMap"]}
{"id": "C60", "title": "A file of unknown content is refused or read, nothing undefined happens", "statement": "For every content of a file, gdxOpenRead either refuses the file with an error or opens it, and reading any symbol of an opened file (records raw or with labels, aliases, domains) delivers records, ends, or reports an error; it never leaves an array, overflows an integer, violates an assertion, runs for ever or reads past the end of the file.", "quantifier": "for every byte sequence as the content of the file, every symbol and every number of records read", "why_tests_cant": "All byte sequences; a fuzzer meets only some, and an out-of-bounds read often goes unnoticed.", "anchors": ["src/gxfile.cpp: TGXFileObj::gdxOpenReadXX, PrepareSymbolRead, DoRead, gdxDataReadRaw, gdxDataReadStr, gdxSymbolGetDomainX"]}
{"id": "C61", "title": "gdxmerge keeps every record", "statement": "After gdxmerge without the option BIG, each symbol of the input files (of those selected, with a dimension below 20) is in the output file with one more index in front, and its records are exactly the records of this symbol in all input files whose dimension, type and subtype agree with the first one, with the identifier of the file as first index, the same other labels, the same values and the same set texts; its explanatory text is the first one that is not empty; whatever is left out is reported as an error.", "quantifier": "for every list of input files and all options", "why_tests_cant": "All lists of files with all contents; the result depends on label tables, order and sorting of the union.", "anchors": ["src/tools/gdxmerge/gdxmerge.cpp: AddPGXFile, WritePGXFile, WriteNameList, AddUEL, AddSymbol"]}
{"id": "C62", "title": "The option BIG of gdxmerge does not change the result", "statement": "The output file of gdxmerge with the option BIG (symbols above a size are read one by one) has the same symbols and records, and the same errors are reported, as without it; no array is left.", "quantifier": "for every list of input files and every limit", "why_tests_cant": "All contents and limits; the out-of-bounds reads go unnoticed.", "anchors": ["src/tools/gdxmerge/gdxmerge.cpp: CollectBigOne, AddPGXFile, main"]}
{"id": "C63", "title": "Numbering strings with a growing hash table", "statement": "TXHashedStringList and TXStrPool give a string the number of the first equal string added since the last Clear, and a new string the next number, whatever the sizes at which the hash table is rebuilt; no index outside the table is used.", "quantifier": "for every history of Add and Clear with fewer than 2^31 - 1 strings", "why_tests_cant": "All strings, all histories; the table is only rebuilt at certain sizes and every rebuild must keep every chain.", "anchors": ["src/gdlib/gmsobj.hpp: TXHashedStringList, TXStrPool", "src/gdlib/gmsobj.cpp: getSCHashSize"]}
{"id": "C64", "title": "Sorting and searching sorted string lists", "statement": "TQuickSortClass::SortN stays inside its array, terminates and leaves a sorted permutation for every comparison that is a total preorder. TXSortedStringList is sorted whenever it says so or no update is open, its Find is right about presence and position, and its operations add or delete exactly the given string.", "quantifier": "for all lists of up to 2^30 strings and all histories of operations", "why_tests_cant": "All permutations with all patterns of equal keys; partition loops without bounds tests depend on sentinels in the data.", "anchors": ["src/gdlib/gmsobj.hpp: TQuickSortClass, TXSortedStringList"]}
{"id": "C65", "title": "TXList is a list", "statement": "Add, Insert, Delete, Extract, Remove, IndexOf, GetLast, Clear and [] of TXList do what the same operations do to a list, indices starting with 0 or 1 as chosen, no place outside the allocated ones is used and no place is read that was not written.", "quantifier": "for all element types, histories of operations and lengths below 2^31 - 1", "why_tests_cant": "Unbounded histories; the overlapping moves and the growth steps depend on the length.", "anchors": ["src/gdlib/gmsobj.hpp: TXList"]}
{"id": "C66", "title": "A number printed by gdxdump is the number", "statement": "DblToStrSep writes a decimal number (digits, separator, exponent) that is the decimal of at most 15 digits nearest to the double, so every decimal number with at most 15 digits that was rounded to a double is printed as itself, with the chosen decimal separator; the format hexBytes is the bits of the double, and hexponential its exact value, different for different doubles.", "quantifier": "for all doubles, all conversions dtoa that give the nearest 15 digits", "why_tests_cant": "2^64 doubles; the text is built in place by shifting digits, depending on exponent and number of digits.", "anchors": ["src/gdlib/strutilx.cpp: DblToStrSep, DblToStrSepCore", "src/gdlib/dblutil.cpp: dblToStrHex, dblToStrHexponential, mFormat", "src/tools/gdxdump/gdxdump.cpp: WrVal"]}
{"id": "C67", "title": "The CSV text of gdxdump is the symbol", "statement": "What gdxdump writes for a symbol with Format=csv is read by a CSV reader (fields separated by the delimiter, quoted fields with doubled quotes, one record per line) as a header with one name per column and then one row per record, in the order of the file, whose fields are the labels of the key and the texts of the values or the set text; a label or text may contain delimiters, quotes and line breaks.", "quantifier": "for all files written by the library, all symbols, options and labels", "why_tests_cant": "Unbounded records and labels; quoting depends on each character of each label.", "anchors": ["src/tools/gdxdump/gdxdump.cpp: WriteSymbolCSV, QQCSV, WrVal, GetUELAsString"]}
{"id": "C68", "title": "Column names of gdxdump CSV output", "statement": "GetDomainNames gives one column name per dimension, each made of the name of the domain (or Dim for a domain *) with a number appended if needed, and no two columns have the same name.", "quantifier": "for all lists of domain names", "why_tests_cant": "All combinations of equal, starred and numbered domain names in up to 20 dimensions.", "anchors": ["src/tools/gdxdump/gdxdump.cpp: GetDomainNames"]}
{"id": "C69", "title": "The CDim table of gdxdump is the symbol", "statement": "With CDim=Y gdxdump writes a CSV table: the columns are the last indices that occur, in ascending order, after one column per other dimension; there is one line per distinct beginning of a key, in the order of the file; the cell of a line and column holds the value of the record with that key (Y for sets) and is empty if there is none. No access outside the column tables.", "quantifier": "for all files written by the library, all symbols with at least two dimensions, options", "why_tests_cant": "Any set of keys; the column search advances through two merged sequences and relies on the order and first-changed positions delivered by the reader.", "anchors": ["src/tools/gdxdump/gdxdump.cpp: WriteSymbolCSV"]}
{"id": "C70", "title": "GAMS output of gdxdump is the symbol", "statement": "The text that gdxdump writes for a symbol in the default format, read as GAMS source, is one declaration: the kind (with variable type), the name, the domains, the explanatory text, and as data the elements of the symbol in the order of the file: sets with their texts, parameters with their values, variables and equations with exactly the fields that are not the default. Aliases are declared as Alias (name, target).", "quantifier": "for all files written by the library, all symbols, options with the decimal point and the default delimiter", "why_tests_cant": "Any label, text and value; whether quoting suffices depends on the characters, and comments, empty symbols and scalars take different paths.", "anchors": ["src/tools/gdxdump/gdxdump.cpp: WriteSymbol", "src/tools/gdxdump/gdxdump.cpp: WriteQUELText", "src/tools/gdxdump/gdxdump.cpp: WriteUEL"]}
{"id": "C71", "title": "Lists of gdxdump are complete", "statement": "The table of labels that gdxdump writes (UelTable) is read as all labels in the order of the file; the list of symbols (SymbolsAsSet) is read as one entry per symbol with name, dimension, type and explanatory text; the list of acronyms declares each acronym of the file.", "quantifier": "for all files written by the library", "why_tests_cant": "Any number of labels, symbols and acronyms with any characters; the loops start and end at different numbers.", "anchors": ["src/tools/gdxdump/gdxdump.cpp: WriteUELTable", "src/tools/gdxdump/gdxdump.cpp: WriteSymbolsAsSet", "src/tools/gdxdump/gdxdump.cpp: WriteAcronyms"]}
{"id": "C72", "title": "The difference file of gdxdiff shows the differences", "statement": "The table of results of gdxdiff has an entry for each symbol that is in one file only and for each pair of symbols that differ, with the right verdict; the difference file that it writes, read by the library, has a symbol for each pair of symbols whose records differ, with exactly one record per difference: the labels of the record, the kind of the difference (ins1, ins2, dif1, dif2) as last label and the values (texts, for sets) of the file it stands for (with FldOnly one field of them, in a parameter; with DiffOnly a parameter with one record for each field of a variable or equation that differs, or each active field of a record without counterpart, and the field as label before the last); the explanatory text of the symbol names the field or describes it as a difference; and a list with the names of the two files.", "quantifier": "for all pairs of files, tolerances and names of files", "why_tests_cant": "All pairs of file contents; the program merges two sorted lists of renumbered keys while it builds a third file.", "anchors": ["src/tools/gdxdiff/gdxdiff.cpp: main, CompareSy, WriteDiff, WriteSetDiff, ShowInsert, CheckParDifference, CheckSetDifference, RegisterDiffUELs"]}
{"id": "C73", "title": "The parameters of a command line arrive as given", "statement": "CrackCommandLine, used by gdxdiff and gdxmerge, gives the parameters that the arguments mean: words, keywords, and parameters with a value written in any of the ways p=w, p w, p = w, p= w, p =w, with the words of parameter files (@name) in place of their names; the first word is the input if no input is given, and the value of a parameter is the last one given. It comes to an end for every command line.", "quantifier": "for all lists of arguments, lists of keywords and contents of parameter files", "why_tests_cant": "All strings of bytes as arguments and in parameter files: quotes, blanks, equal signs and @ are put together into one string and taken apart again.", "anchors": ["src/tools/library/cmdpar.cpp: AddParameters, HasParam, HasKey", "src/tools/library/common.cpp: splitString", "src/tools/library/short_string.cpp"]}
{"id": "C74", "title": "gdxdiff works with the options that are given", "statement": "gdxdiff shows the usage text if and only if the options are not valid (files missing, a number or a field or SetDesc not understood, FldOnly without a single field or with DiffOnly); otherwise the names of the files, the tolerances, the fields, the switches and the lists of identifiers it works with are those of the command line.", "quantifier": "for all command lines, contents of parameter files, and existing files", "why_tests_cant": "All combinations of 17 options with arbitrary values, in any order, repeated.", "anchors": ["src/tools/gdxdiff/gdxdiff.cpp: main (743-975), GetAsDouble, CheckFile", "src/gdlib/strutilx.cpp: ExtractFileExtEx, ChangeFileExtEx, LChSetPos"]}
{"id": "C75", "title": "gdxmerge works with the options and the files that are given", "statement": "gdxmerge ends with an error if and only if two output files are given, ID and Exclude are both given, the output file cannot be written, or (strict mode) the output file exists, a pattern matches no file, or an input file is the output file; otherwise the identifiers, the size for large symbols, the strict mode, the output file and the patterns are those of the command line, the input files are the files that match the patterns in their order without the output file, and the label of each is its name without extension or File_n if that name cannot be a label. An error leaves an existing output file alone.", "quantifier": "for all command lines, contents of parameter files, and states of the file system", "why_tests_cant": "All combinations of options with arbitrary values, in any order, and all directories.", "anchors": ["src/tools/gdxmerge/gdxmerge.cpp: main (710-768), GetParameters (584-692), FindGDXFiles (358-405)", "src/gdlib/strutilx.cpp: ExtractFilePathEx, ChangeFileExtEx"]}
{"id": "C76", "title": "The conversion of a text to an integer", "statement": "utils::val(s, i, code) sets code to 0 if and only if s is the text of an integer in the range of int (blanks, a sign, and decimal digits, or hexadecimal digits after $ or 0x), and then i is its value; otherwise code is the position of the first error. It has no undefined behaviour.", "quantifier": "for all texts", "why_tests_cant": "All texts of any length.", "anchors": ["src/rtl/p3io.cpp: P3_Val_i (272-333)", "src/gdlib/utils.cpp: val"]}
{"id": "C77", "title": "Dates are converted without loss", "statement": "EncodeDate and tryEncodeDate give the number of the day in the Gregorian calendar, counted from 30 December 1899; DecodeDate and DecodeTime give back the date and the time that were encoded, to the millisecond, although the sum of day and time is rounded; the text that gdxmerge stores beside the name of an input file has the local time of the file.", "quantifier": "for every day of every year that the functions take, every time of day, every time of a file", "why_tests_cant": "24 million days with 86 million times each; the arithmetic of the calendar has corner cases at the ends of 4, 100 and 400 years, and the rounding of the sum depends on both numbers.", "anchors": ["src/rtl/sysutils_p3.cpp: isLeapYear, tryEncodeDate, EncodeDate, EncodeTime, DecodeDateFully, DecodeTime, DateTimeToTimeStamp, FileDateToDateTime", "src/tools/gdxmerge/gdxmerge.cpp: FindGDXFiles, FormatDateTime"]}
{"id": "C78", "title": "Integers become texts and back", "statement": "IntToStr gives the decimal number of every int64 without needless zeros; StrToInt64, StrToInt and val give the number again, StrToInt64 reads every decimal number and hexadecimal number after $ and gives another value than the smallest int64 for nothing else; IntToHex gives the hexadecimal number with at least as many places as asked for; IntToNiceStrW groups the digits by three and fills with blanks; IntegerWidth is the length of the text; StrExcelCol and ExcelColStr are inverse to each other. None of them has undefined behaviour.", "quantifier": "for all integers of the type, all widths, all texts", "why_tests_cant": "2^64 numbers and all texts; the failures are at the ends of the ranges and for negative numbers.", "anchors": ["src/rtl/sysutils_p3.cpp: StrToInt64 (169-215), IntToStr (832-883), IntToHex (889-903), StrToInt (905-911)", "src/gdlib/strutilx.cpp: IntToNiceStrW (86-121), StrExcelCol (132-141), ExcelColStr (144-151), IntegerWidth (154-164)"]}
{"id": "C79", "title": "gdxdump does what its options say", "statement": "gdxdump reads its options in all the ways in which they can be written (w=v, w= v, w v, w =v, w = v, without regard to case). It refuses, with the usage text, unknown options, bad values and options that are given twice; it refuses a delimiter equal to the decimal separator and CSV without a symbol (exit code 1) and a missing file (exit code 2). Otherwise it goes on with exactly the options that were given, and the defaults for the others.", "quantifier": "for all lists of arguments of any length", "why_tests_cant": "All combinations, orders and ways of writing of 28 options with arbitrary values.", "anchors": ["src/tools/gdxdump/gdxdump.cpp: Usage (911-947), NextParam (953-980), main (1002-1357)"]}
{"id": "C80", "title": "gdxdump writes a program that declares every symbol", "statement": "gdxdump without the option Symb writes a GAMS program: a reader of GAMS statements (dollar lines and comments skipped) finds one statement for every acronym and one for every symbol of the file, in the order of the file; the statement of a symbol declares it with its type, name, domain, explanatory text and all its records, that of an alias names the set it stands for.", "quantifier": "for all GDX files written by the library, any number of symbols and records, all formats of doubles that read back as the nearest number", "why_tests_cant": "All files with any number of symbols of every type; a statement that ends too early or too late changes the meaning of all that follow.", "anchors": ["src/tools/gdxdump/gdxdump.cpp: WriteSymbol (284-557), WriteAcronyms (982-1000), main (1406-1471)"]}
{"id": "C81", "title": "Tables of gdxdump show every symbol and text", "statement": "gdxdump Symbols writes a header and one line per symbol, in the order of the names, with number, name, dimension, type, number of records and explanatory text, all below the words of the header. DomainInfo writes such a table with symbol number, type, kind of the domain, name and domains. SymbolsAsSetDI writes the members of a set that are read as one entry per symbol in the order of the file, with its domains. SetText writes the number of texts, the greatest number of a text that a record of a set holds, and every text with its number.", "quantifier": "for all GDX files written by the library, any number of symbols, texts and records", "why_tests_cant": "All numbers of symbols and lengths of names, counts and texts, on which the widths of the columns depend; the search for the number of texts by bisection over all int32; the last symbol of the file is special.", "anchors": ["src/tools/gdxdump/gdxdump.cpp: WriteSymbolAsItem, WriteSymbolsAsSet (225-282), WriteSymbolInfo (781-813), WriteDomainInfo (815-853), WriteSetText (856-910)"]}
{"id": "C82", "title": "Format=gamsbas assigns every level and marginal", "statement": "gdxdump with Format=gamsbas writes a program that a reader of GAMS reads as these assignments and nothing else: for every record of every variable its level and its marginal, for every record of every equation its marginal, in the order of the file, each with the labels of the record and the text of the value; values that are 0 are left out exactly if FilterDef is on. At the end of the program the listing is on, whether or not it was switched off after six values.", "quantifier": "for all GDX files written by the library, any number of symbols and records", "why_tests_cant": "The separators depend on whether a value is the first of its symbol and on the number of values so far (over all symbols), in all combinations with values that are left out; labels with quotes.", "anchors": ["src/tools/gdxdump/gdxdump.cpp: WriteSymbol (284-557), main (1347-1350, 1409-1411, 1457-1474)"]}
{"id": "C83", "title": "NoData declares every symbol and loads its data", "statement": "gdxdump with NoData writes a GAMS program that names the GDX file and then, for every symbol in the order of the file, declares it with its type, name, domain and explanatory text (no records) and loads its data from the file by its name; an alias is declared and not loaded. A reader of GAMS that knows the comments to the end of a line (`!!`) finds these statements and no others.", "quantifier": "for all GDX files written by the library, any number of symbols and records, all names of files without blanks", "why_tests_cant": "All explanatory texts, with and without quotes, and symbols with and without records; the meaning of every line depends on the switch of comments to the end of a line before.", "anchors": ["src/tools/gdxdump/gdxdump.cpp: WriteSymbol (284-557), main (1406-1471)"]}
{"id": "C84", "title": "gdxdump as a whole: exit code and output", "statement": "A run of gdxdump ends with exit code 1 for arguments that are not accepted, 2 if there is no such file (with or without the extension .gdx), 4 if the library refuses the file, 6 if the output file cannot be opened or there is no symbol of the name given with Symb, and else 0; no other exit codes. What the options ask for is written to the output file if one is given, else to the standard output, and no other file is changed. With no option that selects something, this is a program with a statement for every symbol (with NoData: one that loads the data); with Symb, the declaration of that symbol, found without regard to upper and lower case, with Format=csv a CSV file with its records, with Format=gamsbas the assignments of its levels and marginals (without Symb those of all symbols); with Symbols, SymbolsAsSet, SymbolsAsSetDI, DomainInfo or SetText the first of these lists, in this order; with UelTable first the set of the elements; with -V, the version and the producer of the file, its format, its compression and the numbers of its symbols and elements.", "quantifier": "for all command lines, all contents of the files, and for the output all files written by the library, any number of symbols and records", "why_tests_cant": "The result depends on every combination of options in any order, on every content of the input file, and on whether the files exist and can be written.", "anchors": ["src/tools/gdxdump/gdxdump.cpp: main (1002-1495), WriteUELTable (145-189)"]}
{"id": "C85", "title": "gdxdiff as a whole: exit code and difference file", "statement": "A run of gdxdiff ends with exit code 2 for arguments that are not accepted, 3 if an input file does not exist (with or without the extension .gdx), 4 if the library refuses an input file, 6 if the temporary file cannot be created, 7 if the difference file cannot be given its name, and else 0 if the two files have the same content up to the options and 1 if not; no other exit codes. With 0 and 1 the difference file is under the name that was asked for, an older file of this name is replaced, and no other file is changed; with 2, 3, 4 and 6 no file is changed and the temporary file is gone. The standard output names the two input files, has one line for every symbol that is different, with the kind of the difference, or says that there are no differences, and names the output. An input file is never changed, and with exit code 7 neither the new difference file nor an older one is lost.", "quantifier": "for all command lines, all contents of the files, all answers of the file system, and for the comparison all files written by the library, any number of symbols and records", "why_tests_cant": "The result depends on every content of two files, on the names that are in use, on which names are the same, and on which deletions and renamings the system permits.", "anchors": ["src/tools/gdxdiff/gdxdiff.cpp: FatalErrorExit (93-113), OpenGDX (124-153), main (730-1176)", "src/tools/gdxdiff/gdxdiff.hpp: ErrorCode (19-25), StatusText (67-77)"]}
{"id": "C86", "title": "gdxmerge as a whole: exit code, output file and last lines", "statement": "A run of gdxmerge ends with exit code 1 for an error in the arguments or the options, and in strict mode also if no input file can be read; with 0 otherwise. There are no other exit codes. Without an error in the arguments the output file is under the name that was asked for and is the merge of exactly those of the given files that the library can read; with an error no finished output file is written. For files written by the library the exit code is 0 and the output file holds all records of all symbols that agree, each with the label of its file. The last lines give the number of errors, if there are some, and the number of input files that were merged. A file is not lost without an error being reported.", "quantifier": "for all command lines, all file systems, all contents of the files, any number of files, symbols and records, with and without BIG", "why_tests_cant": "The exit code and the count depend on every content of any number of files and on all combinations of the options; tests look at a few merges of good files.", "anchors": ["src/tools/gdxmerge/gdxmerge.cpp: main (710-825), AddPGXFile (138), CollectBigOne (295), FindGDXFiles (358-405)"]}
{"id": "C87", "title": "gdxClose can always write the file", "statement": "After every history of API calls, gdxClose of an object with no symbol being written, or with records being written, is defined: everything that the calls accepted before can be written to the file. In states in which no file is being written it leaves the file as it is and returns 0 exactly if a file was open.", "quantifier": "for every history of calls with every argument, any number of symbols, elements, texts, comments and acronyms; every compression", "why_tests_cant": "It is about all texts that any sequence of calls may have stored; a single text that is too long for its place in the file makes the close read outside of a buffer.", "anchors": ["src/gxfile.cpp: gdxClose (534-663), gdxSymbolAddComment (3530-3548), gdxAcronymAdd, TAcronym::SaveToStream (4138-4143)", "src/gdlib/gmsstrm.cpp: TXStream::WriteString (241-254)", "src/tools/gdxmerge/gdxmerge.cpp: main, WritePGXFile; src/tools/gdxdiff/gdxdiff.cpp: main (closing the output)"]}
{"id": "C88", "title": "Records can always be given in all three modes", "statement": "After every history of API calls that left a symbol being written, gdxDataWriteRaw, gdxDataWriteMap or gdxDataWriteStr, whichever belongs to the mode, is defined with as many indices as the symbol has dimensions. gdxDataWriteMap accepts the record exactly if every number is mapped to an element; the record is then added to the collected ones, otherwise one error is noted and the collected records stay as they are. gdxDataWriteStr adds the record, or notes one error and leaves the collected records as they are; then one of the strings without its trailing blanks is no legal element. gdxDataWriteRaw accepts the record exactly if its numbers are in the domains of the symbol and it comes after the last record; it then adds the record without an error, and otherwise leaves the number of records as it is and notes exactly one error: outside of the domain, given before, or not in order.", "quantifier": "for every history of calls with every argument, every number of symbols, elements and collected records, every key and all values", "why_tests_cant": "It is about all sequences of calls, among them refused calls and calls of other functions in the middle of a symbol, and about all keys; a test runs a few of them.", "anchors": ["src/gxfile.cpp: TGXFileObj::gdxDataWriteMap (2727-2758), gdxDataWriteStr (473-507), PrepareSymbolWrite (726-789), gdxDataWriteRaw (2221-2227), DoWrite (1234-1380)", "src/gdlib/datastorage.hpp: TLinkedData::AddItem (171)"]}
