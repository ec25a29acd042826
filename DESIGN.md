# Formal model of hec-dss (DSS-7 C library) in Lean 4

The model covers the DSS version 7 C library under `/repo/heclib/heclib_c`. The Fortran part, DSS-6
files, the Java/JNI and Python layers and the display code are not modelled.

## 1. Trusted base

* **Lean 4.33.0 kernel.** Every theorem in `MANIFEST.json` depends on at most the axioms `propext`,
  `Quot.sound` and `Classical.choice` (`vcheck` prints them). No axioms are added, no compiled
  evaluation is used. Concrete facts (violation theorems, examples, finite tables) use
  `decide`, `decide +kernel` or `rfl`, which the kernel evaluates itself.
* **The translation from C to Lean**, done by hand. Every model definition cites the file and lines
  it models and says where it simplifies. No tool checks the correspondence.
* **The environment**: compiler, libc, operating system, disk and floating point unit behave as the C
  code assumes. Where they matter the assumption is in the model (one disk write is atomic; POSIX
  record locks are per process; `binary32` rounding in the time string routine is modelled exactly
  for the one expression where it matters).
* **Arithmetic**: C `int` / `long long` are unbounded `Int` with `Int.tdiv` / `Int.tmod` for C's
  truncating `/` and `%`, except in hashing (64 bit words), packing and swapping (bytes). Integer
  overflow is therefore outside every theorem unless its statement bounds the values.

## 2. Layout of the development

* `Verif/Model/*.lean` the model, function by function.
* `Verif/Spec/*.lean` small specifications that mention none of the model's helpers.
* `Verif/Proofs/*.lean` lemmas, invariants.
* `Verif/Props/*.lean` the property theorems (names start with the property id), each with an
  `example` showing a concrete, non-trivial case that meets the hypotheses.
* A theorem named `…_partial` proves part of its property; its comment and the note in the manifest
  say what is missing. A theorem named `…_violation` is a concrete execution of the model on which
  the full property is false: it is the evidence that the missing part is a defect of the code, not
  of the proof.
* `tools/props.py`, `tools/claims.py`, `tools/manifest.py` generate `properties.jsonl` and
  `MANIFEST.json`; `tools/mutate.py` runs the wrong-program tests logged in `seeded/LOG.jsonl`.

## 3. Properties: what is modelled and how it is proved

**Dates (C01–C04, C16, C45).** `Model/Calendar`, `Model/Dates`: yearMonthDayToJulian,
julianToYearMonthDay, dayOfWeek, addCentury, yearMonthDayToDate, dateToYearMonthDay, dateToJulian
and julianToDate. Spec: an inductive "next day" calendar. Proofs: closed forms for the leap counts
and `omega`; the search loop of julianToYearMonthDay by an invariant. The floating point first guess
of the year is a parameter (the theorem holds for any guess near enough, with the bound stated).

**Times (C05–C08, C11), periods (C09–C12).** `Model/Times`: cleanTime, compareTimes, incrementTime,
numberPeriods, ztsOffset*, ztsBlockStart routines. Spec: an instant is a number of seconds. Proofs:
Euclidean division; the month and year periods reduce to the calendar lemmas.

**Interval names (C13, C14), time strings (C15).** `Model/Intervals`, `Model/Strings`: the whole
interval tables (kernel evaluation over the finite table) and general lookup lemmas for every string.

**Encoding (C17–C20, C34, C42).** `Model/Encoding`, `Model/Pack`: byte packing, word swapping, repeat
compression of arrays, error codes, record status filter, zpackIarray-style packing of quality and notes.

**Names (C21–C24, C49).** `Model/Strings`: pathname hashing, form/parse/set/clean, comparison.
Strings are lists of bytes; buffers are arrays with a size, and reads or writes outside are visible. `Model/Wild`: parsing of
patterns and comparison of parts with explicit local arrays, so that reads outside them are visible. Spec:
an inductive relation `Matches pattern part`.

**Header strings (C51).** `Model/Headers`: the strings of time series and paired data as bytes in the internal
header, written through local arrays of 300 and 400 bytes and read through arrays of 200 and 400 bytes whose
previous contents are arbitrary; the conversion of old headers in zcopyRecordInternal. Spec: `shown`, the text
without blanks at the ends. Proof: the header is the list of cells of the strings, by one lemma per append.

**Free space (C25)** `Model/Alloc`: zgetFileSpace / zreleaseFileSpace with the reclaim table and
segments. Spec: live extents never overlap. **Buffering (C26)** `Model/Buffer`: zget / zput / zgetBuff /
zputBuff / zflushBuffers; refinement to an unbuffered disk.

**Record engine (C27–C33, C41, C48, C50).** `Model/Engine`: a disk of 64 bit words; header counters, hash
table, bin blocks, bins, info blocks, data areas, EOF flag; zcheckInternal, zbinNew, zbinUpdate,
zwriteNew, zwriteExisting, zwriteInternal, zreadInternal, zdeleteInternal, zundelete, zreadInfo,
every step as explicit `get`/`put` of words in the order of the code. Proof: ghost ownership colouring
of all words (header, table, bin, info, data), an invariant `InvH` over colours, chains and live
records, an abstraction function to a finite map, a step theorem for each operation and induction
over histories; crash points are prefixes of the list of disk writes. `Model/Catalog`: the walk of
zcatalogInternal over the blocks of bins; the invariant contains the list of blocks in address order.

**Copying (C52).** `Model/Copy`: the scan of zcopyFile over every word of the file for info blocks, and
zcopyRecordInternal for each, with the patching of the copy's info block, on the engine of both files. Proof:
induction over the addresses with "the new file has exactly the records whose info block lies below x";
the step uses the write theorem of the engine and a lemma that patching the info block keeps the invariant.
**Text and arrays (C53).** `Model/Records`: ztextStore / ztextRetrieve, zarrayStore / zarrayRetrieve and the
public zwrite that lengthens odd user headers, on the engine. Spec: the bytes and numbers given by pointer and
count. Proof: the write and frame theorems of the engine, and round trips between bytes and ints.

**Paired data (C54).** `Model/Paired`: zpdStore of a whole record with the internal header, labels padded to eight
bytes, deletion of a record of another type, and zpdRetrieve in full and in part (start addresses between words for
floats, the loop over the labels). Spec: `part` cuts rows and curves out of lists. Proof: C51 for the strings, the
delete and write theorems of the engine, and lemmas on reading a piece of an array.

**Part of paired data (C55).** The other branch of zpdStore, which writes values (and labels) into the arrays of a
record without zwrite. Spec: `Replaced` compares lists position by position; `Reached` adds such stores to the
histories. Proof: `edit_ok` (changes inside the arrays of one record keep the invariant of the engine) and lemmas
on writing a piece of an array that starts or ends between words. Not modelled: labels that need more space
(lines 1112-1165).

**Locations (C56).** `Model/Location`: zlocationPath, zlocationStore, zlocationRetrieve, zlocationDelete with the copies
into arrays of fixed size and the bytes malloc leaves behind strings. Spec: the name "/A/B/Location Info////" and memory
holding a string. Proof: as for C53.

**Public interface (C57–C60).** `Model/Api`: the functions of hecdss/hecdss.c about text, arrays, paired data, locations
and the catalog, on the models above, with mallocAndCopy and zstructPdNewDoubles. Memory of the caller is a list;
access outside is `none`. Spec: `written`, `shownIn` (memory after a write), `KeepsBehind`, `StringAt`. Proof: C53, C54,
C56, C48 and lemmas on stringCopy and the copies. Time series through this interface are not modelled.

**Grids (C61, C62).** `Model/Grid`: zspatialGridStore_extended, zspatialGridRetrieve, hec_dss_gridStore, hec_dss_gridRetrieve. zlib is
a parameter (a pair of functions); `Inverse` in `Spec/Grid` says that what it compresses it gives back, and is a hypothesis.
Proof: as for C53, with an induction on the strings. Not modelled: the dates the parts D and E put into the catalog.

**Regular series in a file (C63).** `Model/SeriesFile`: the loops of ztsStoreReg7 and ztsRetrieveReg7 with the names of the
blocks made by `julianToDate` and `zpathnameSetPart` in the array of the caller's pathname, and ztsRegStoreBlock,
ztsRegReadBlock, ztsWriteBlock on the record engine: packing of values and header, internal header with the strings,
zread, zwrite, zdelete. The specification is that of C39 (`regSeries`). The proof relates the file to the map of blocks of
C39 (`SimAt`: each block record decodes to the entry of the map), so that C39 carries over, and uses the history invariant
`HInv` of the engine for the rest of the file. `SeriesHistory` interleaves stores of the series with any other calls. Not
modelled: a record of the other value size is an error (ztsRegStoreBlock.c:838-875 converts it), user headers, locks.

**Irregular series in a file (C64).** `Model/ItsFile`: the loops of ztsStoreIrreg7 and ztsRetrieveIrreg7 (with ztsGetSizesInternal)
over the pathnames of the blocks, on the engine: a block is read by zread, unpacked from its words (`irregRecOf`: times first,
then values and quality as in Model/Pack), merged as in Model/IrregSeries, packed and written by zwrite with its internal header
(ztsInternalHeaderPack). Proof: `ItsSimAt` says that the record of a block in the file is the one in the map from days to
records of C46; the loops preserve it (`Proofs/ItsLoop`), so C46 carries over. Not modelled: storage flag 1, notes, profiles,
pattern data, the values before and after the window, conversions between floats and doubles.

**F parts with tags (C65).** `Model/FPart`: normalizeFPart (strtok_r, the checks of the five kinds of values, the building of the
result) and normalizeFPartInPathname. `Spec/FPart` cuts the text at the bars and says which F parts are well formed; the loop of
the code is shown to go through the same pieces (`fLoop_run`, `fRun_spec`). ASCII text ("C" locale); memory is available.

**Regular series through the public interface (C66).** `Model/TsApi`: hec_dss_tsStoreRegular and hec_dss_tsRetrieve over
`Model/SeriesFile`: the texts of dates and times, ztsProcessTimes (cleaning of the pathname, the E part, the pathname with the
date of the first block, granularity and base date), the check of the tags, the times given back (ztsRegAddTimes), the copies
into the caller's arrays. Arrays that are not initialised are arguments (`TsMem`). What is not followed ends in `unmodelled`
(patterns, irregular E parts, windows not given by two dates, elevations, which ask for the vertical datum). Proof: the calls
reduce to the store and the retrieve of C63; `times_spec` says that the times are the standard times, `time_mono` and
`block_days` that they are ints.

**Irregular series through the public interface (C67).** `Model/ItsApi`: hec_dss_tsStoreIregular, and hec_dss_tsRetrieve for
irregular E parts, over `Model/ItsFile`, with the same treatment of pathnames and times as C66 (`tsPath` with the `~` of
pseudo-regular intervals). `Spec/ItsApi`: `ItsPathFor` (any spelling), `BaseText` (the text of the base date). A store is one of the
history of C64 (`C67_store_partial`); a retrieve gives the list of the values that the stores leave in the window
(`C67_retrieve_partial`, with the times as ints); times out of order are refused (`C67_not_ascending`). Case: flows over the turn
of a year (`Props/ItsApiCases`).

**Old minute intervals (C68).** `Model/OldNames`: the second lookup of zcheck (ztsPathCompatible for version 7), and reading,
writing and deleting with it: after it the hash codes and the length in ifltab are those of the name tried last. `Model/Engine`
leaves the second lookup out; `C68_other_names` shows that the calls are the same for every sequence of calls without old
names (for every other theorem about files this is where the pathnames have to come from), and `C68_interval_names` that the
E parts of series in version 7 are not old names. In a file written without old names, an old name stands for the new one
(`C68_second_name_partial`). Proof: the two slashes the loop finds are the fifth and the sixth, by induction; then the
functions unfold to those of the engine.

**Range and type of records (C69, C70).** `Model/TsRange`: hec_dss_dataType (zdataType), hec_dss_recordType (zgetRecordBasics7,
with its comparison of the pathname with an address) and hec_dss_tsGetDateTimeRange without `boolFullSet`
(ztsGetFirstLastRecordTimes). The dates of the info block are part of the series model (`regDates`: ztsRegStoreBlock.c:783-788
and the dates of the merge). C69 follows from the invariant of the histories of C63, which says that the record of every block
ends in values that are not missing (`Tight`) and that its dates are the times of these positions (`DatesAt`; `Proofs/BlockTimes`
shows that counting intervals from the start of the block gives the standard times, which fails for years). C70 follows from
the invariant of the file: the type in the bin is compatible with the one in the info block, which is the one written last.

`Model/Squeeze`: a directory of files of words; zsqueeze7 in place as the sequence of states of the directory (unlink of the
temporary file, every prefix of the writes of the copy, truncation, every piece of copyFile, unlink), opening a file
(zpermRead).  C71 is proved from `copied` (C52) and a lemma that only words of the ghost owner matter
(`HInv.quiet`); C72 from an invariant that the header on disk is the header in memory after every call, and an
induction over the sessions.

`Model/Check`: zcheckFile with its four checks over the words of the file.  C73 is proved from the invariants of the engine
(the ghost owner of every word gives that a word with the info flag is an info block; the chains of bins give the rest) and two
additions to them: no alias bin is ever set, and only undelete makes an entry with status 0 (`Stepped.prim`).
`C73_passed` is the converse, about files with any words whatever (no history): what the zero result of zcheckFile means for the
bins, the info blocks and the chains, with the places of the bins given by the inductive predicates of `Spec/CheckPassed`.

`Model/TsSizes`: hec_dss_tsGetSizes, ztsGetSizesInternal with its loop over the blocks, fuel for the loop (a result `running` when it is
spent, so that "for all fuel: running" says the call never returns).  C74 bounds the number from both sides (values that are there ≤ n ≤
positions of the touched blocks) by induction on the blocks of the window over the invariants of C63/C64.

`Model/TsInfo`: hec_dss_tsRetrieveInfo: the read of the header, the test for the deprecated form, the copy into the
buffers of the caller.  C75 is proved from the invariants of C63/C64 and the shape of the header (C51).

`Model/Crc`: zgetDataCRC with the table and the loop over the bytes; `Spec/Crc` says what a CRC-32 is, bit by bit (shift register with the
polynomial), over natural numbers.  C76 is proved from the linearity of the register and the invertibility of one step.

`Model/WhatChanged`: zwhatChangedSetStart and zwhatChangedCompare, the latter with the array `index` that has room for one entry per row.
C77 is proved from a further invariant of the engine (`Dated`, in `Proofs/EngineStep`): the time of the last write in an entry of a bin is
that of the record, kept by all calls but renames and refused writes; and an induction over the history that says which write a record is from.

C78 is proved from two further invariants of the engine (`TrashKept`, in `Props/Undelete`): the count of deleted records in the file header is at
least the number of deleted entries, so that the catalog has room for all of them, and every deleted record is as it could be read before
some call that deleted it.  `Model/Undelete`: zundeleteAll.

`Model/Collection`: zsetCollectionSequence; `Model/Wild` has zpathnameCompareCollection and the comparison of F parts in the catalog of a
collection.  C79 is proved from C22, C80 from the comparison of C49 with the sequences replaced by X's, C81 by induction over the parts.

`Model/TextFile`: text files and binary files as records (ztextStoreFromFile, ztextRetrieveToFile, zbinaryStoreFromFile,
zbinaryRetrieveToFile), the files of the computer being a function from names to bytes.  C83 is proved from C53 and an induction over the
pieces that fgets gives.  `Model/Open`: zfileName, zopenInternal up to the locks, zpermRead, zgetFileVersion, on bytes; realpath, permissions
and the success of `open` are parameters, and so is what zpermCreate writes.  C84 and C85 are proved by cases.

`Model/SortCat`: the sorted catalog (zcatInternalSort, zcatSortPath, toFixedFields, getLastInt, the comparison of sortfiles.c, the list of
addresses in the file header and what the calls do to its status).  The external sort is taken to sort by its comparison (a merge sort here);
the list is kept beside the file.  C86 is an invariant over histories of calls and catalogs: while the status says the list is good, it has the addresses
of all entries; overwriting a record leaves its entry in its place.  C87 compares lines column by column.

`Model/CopyRecord`: zduplicateRecord and zcopyRecord, with the choice between copying a record as it is and retrieving and
storing it (a parameter, not modelled), and the info block that original and duplicate share in memory.  `Spec/CopyRecord`
has the histories in which records are duplicated and copied from file to file besides the calls of C27 (`InUse`).

`Model/DateTimes`: the texts for positions in series, minutes since 1900 and milliseconds since 1970, and texts of date and time
together.  C90 reads the texts back with the functions of C05, C15 and C45.

`Model/RecordSize`: zgetRecordSize, zgetRecordBasics, zgetLastWriteTimeRec on the file of C27, with the test whether the record is the
one looked up last (which compares the pathname with the bytes of an address).  `Spec/RecordSize` says which fields describe a record.

`Model/ErrorChain`: zerrorUpdate, zerrorEncodeHigh, and the pattern by which callers pass a status on (`passUp`); the messages written to
the log are left out.  C92 is arithmetic by induction over the list of callers.

`Model/Tin`: zspatialTinStore and zspatialTinRetrieve on the file of C27, as `Model/Grid` (C93, proved as C61).

`Model/FullSet`: ztsGetFirstLastPathnames, what ztsGetPathTimeWindow does to the pathname, and ztsGetDateTimeRange with `boolFullSet`.
C94 joins the catalog (C48, C49), the dates of D parts (C45) and, for the values, the invariant of C63 by which C69 is proved.

`Model/TsPattern`: ztsStorePattern, ztsRetrievePattern and the four calls of hecdss.c for pathnames whose D part is TS-Pattern.
C95 follows the pattern of C93: what is stored is one record, kept by the engine (C27), and the names of the parts come from C14 and C22.

`Model/Settings`: zset, zquery, zsetMessageLevel, zsetMessageGroupLevel, zmessageLevel and the loops of zsqueeze7 over the levels.
C96 and C97 are invariants over sequences of calls: each call changes only the fields of its own setting.

`Model/Base64`: b64Encode and b64Decode. C98 is proved by induction over groups of three bytes against a specification that reads a group as
one number in base 64 and in base 256; the bit operations become arithmetic by `Nat.shiftLeft_add_eq_or_of_lt` and case checks over one byte.

`Model/Delimited`: extractFromDelimitedString (with matchCase) and insertIntoDelimitedString on a memory of bytes with checked accesses.
C99 is a refinement: the memory always holds the text of a list of entries that is the map of the specification.

`Model/PathStats`: zupdatePathStats and where it is called, as a second state beside the engine (`statsAfter`): a write of a missing
record and a rename that finds its record update the numbers with the pathname. C100 is an invariant over the steps of the store: every pathname
that is or was in use fits. C87's condition on the widths follows for columns taken from the header (`C100_order_partial`).

`Model/FileTimes`: klastWriteTime and kmyLastWriteTime, set by zwriteNew, zwriteExisting, zdeleteInternal and zrename, as a second state
beside the engine (`timesAfter`, with what the clock shows during each call). C101 follows from the steps of the store: a call either leaves the
contents and the times, or sets the time of the file to a reading of the clock, and every record after it was there before or has that time.

`Model/Compare`: zcompareDataSets for transfer structs, with the pointers (null or not) and the lengths of the struct apart from the ints that are
there, so that reading outside is `none`; the struct as zread fills it. C102 is a case analysis per array, joined with the read of the engine.

`Model/Current`: ztsGetPathTimeWindow (with ranges of dates; without the number of values) and ztsIsCurrentTimeSeries, on the arrays of
`Model/Strings`, and the day of the clock. C103 uses C14 for the E part, C45 for the date, C12 for the blocks.

`Model/Commas`: longWithCommas; C104 by induction over the digits from the right.

`Model/SqueezeAdvice`: zsqueezeNeeded, with the counts of the file header as natural numbers; C105 by an equivalence for the whole answer, and
znewFileSize for the table of a squeezed file.

`Model/CatalogFile`: the name zcatalogFile gives to its file and the opening of that file; C106 over the file system of `Model/Open`.

`Model/AliasChain`: the linked list of the aliases of a record (zaliasAdd, zaliasRemove, zaliasNumber, zaliasList, zaliasGetPrimary) at the level of
addresses; C107 by an invariant (`AliasLinked`) kept by both operations.

`Model/Rename`: zrename with the deletion of the target, the D and E parts kept for time series, the entry
marked as renamed, the info block moved if the pathname grows, and the detour by a temporary pathname when
only letter case changes. Renames are calls of the histories of C27–C33, C41 and C48.
Conditions `Allowed` / `Plain` (in `Spec/Histories`) exclude what the code gets wrong (findings A, G)
and what is not modelled: aliases, several files, space reclamation (off), DSS-6.

**Locks (C35, C43, C44).** `Model/Locks`: processes with handles, the lock words of the file as POSIX
record locks, zlockActive / zlockPassive / zlockDss / zpermRead / zpermWrite; transition system,
inductive invariants over all schedules. Advisory locking on Windows, old file formats and time-outs
are not modelled.

**Regular series (C38–C40).** `Model/Reg`, `Model/Trim`: ztsStoreReg7, ztsRegStoreBlock, ztsRegReadBlock,
ztsRetrieveReg7 (block loop, position arithmetic, store flags), ztsTrim. Spec: a function from instants
to values. Not modelled: notes in stores, profiles in stores, data type conversions, offsets within
intraday intervals, pattern (year 1) series.

**Irregular series (C36, C37, C46, C47).** `Model/Irreg`, `Model/IrregSeries`: ztsIrregMergeBlocks and
the replace merge, ztsStoreIrreg7, ztsIrregStoreBlock, ztsIrregReadBlock, ztsRetrieveIrreg7 with base
dates and granularities. Spec: a finite set of (instant, value) sorted by instant.

See `MANIFEST.json` for the theorems of each property and the exact limits of each.

## 4. Not modelled
DSS-6 and Fortran layers; TINs; ztextStore from a file and the text functions of the
Fortran interface; the bounds of all locations in the file header; vertical datum conversion; JNI and Python; messages and error
reporting beyond the returned status; memory allocation failures; floating point arithmetic on values
(values are opaque, only equality with the missing flags is used).

## 5. Findings: places where the code breaks a property

Each was found by attempting the proof. Those with a theorem have a kernel-checked failing execution.

Serious
* **Lost records in a bin chain (G)** `C27_lost_record_violation`. zcheckInternal / zbinUpdate / zbinNew: a
  deleted slot of another size is reused; the entry written overwrites the pointer to the next bin, and
  every record in later bins is lost.
* **Overflow by one word (A)** `C28_overlap_violation`, `C33_overflow_violation`. zwriteExisting compares the
  new size in ints with the allocated size, but headers of odd length are stored in whole words; a
  record rewritten with two or three such headers then reaches one word into the next allocation.
* **Stored data not replaced (H1)** `C38_all_missing_violation`, `C39_blank_block_violation`. ztsStoreReg7:273:
  a full interior block of missing values leaves the old data in place.
* **Weekly series (J)** `C39_weekly_violation`. First and second Saturday of a decade block map to the same
  position; 521 positions for up to 522 Saturdays.
* **Replace mode loses values (D, E)** `C37_loses_violation`, `C37_notes_violation`.
* **Dense decade blocks (T)** `C46_dense_decade_violation`. A decade block with more values than minutes of its
  span gets logical number 1 and loses the stored values at the next merge (ztsIrregStoreBlock:679-687).
* **File header as reclaim table (K)** `C25_header_violation`. After a failed search kreclaimSegAvailableAdd is 0
  and the next release writes its entry over the file header. `C25_expand_violation` (B): zwriteExisting
  releases longs where ints are meant. `C25_full_table_loss` (C): a full table overwrites its last entry.
* **Lost header updates (N, O)** `C43_lost_update_violation`, `C43_exclusive_open_violation`. Error paths unlock
  without flushing (zrename.c:199-207, zwriteInternal.c:326,355) and leave kwritingNow=1, so the next lock
  works from a stale header; exclusive open reads the header before locking.
* **Lock table (P, Q)** `C44_last_slot_violation`, `C44_exclusive_word_stays_violation`, and
  `C35_nested_violation`, `C35_same_process_violation`, `C35_read_mode_violation`.

Others
* zopenExtended accepts hash size 1, zhash then divides by zero (`C21_one_entry_violation`).
* zpathnameSetPart reads before the buffer, overflows by a byte and destroys a pathname without last
  slash; zpathnameGetPart uses an uninitialised position; zpathnameClean overflows by a byte (C22, C23).
* Day of week wrong before 31Dec1899 (C04); year 4 has two days of one number (C01); undefined time equals
  the pair (0,0) (C06); end of period with offsets in March and on day 30 (C09); yearly counts (C10);
  weekly and monthly offsets (C11).
* STATUS_NOT_OKAY equals RECORD_NOT_FOUND; negative system codes misdecoded (C20).
* Time strings: 4 ms before a second round up; 5 byte buffers unterminated; "12.3" reads uninitialised
  memory (C15). Empty E part is taken for yearly data (C14).
* Dates: years of five digits cut, year 0, negative years in style 5, century of two digit years by
  length only, short buffer truncates with success (C45).
* Undelete while a record of that name exists makes two live entries (C32). Crash in the middle of a
  rewrite leaves a mixture of old and new sections (C41).
* Buffers (latent, buffer sizes other than 0 are not used by the library): gaps, stale buffers, odd
  lengths, overruns (C26).
* ztsTrim on an all-missing profile reads outside the array (C40).
* Previous / subsequent value flags return nothing if the first / last block has no value in the window
  (C47); a century window not on a minute includes an earlier value, times are cut to the granularity of
  the first record (C46).
* The catalog ignores the range of types asked for (`C48_type_range_violation`), keeps the type of a
  record's first write (`C48_stale_type_violation`), and shows the time of a refused write
  (`C48_refused_time_violation`).
* A catalog pattern with a leading star reads memory before a local array when the part is shorter than the
  text after the star (`C49_short_part_violation`); the pattern `**` misses empty parts
  (`C49_two_stars_violation`).
* Rename (C50): renaming a missing record deletes the record under the new pathname
  (`C50_missing_violation`); for time series the record deleted first is not the one in the way
  (`C50_other_block_violation`, `C50_in_the_way_violation`), and the pathname is cut off if the D and E
  parts do not fit (`C50_truncated_violation`); a crash loses the record (`C50_crash_violation`); the
  catalog can show another record's time (`C50_last_write_violation`).
* Header strings (C51): units, type and time zone of more than 200 bytes are read outside the array
  (`C51_read_outside_violation`), from 298 bytes on all are lost silently (`C51_all_lost_violation`,
  `C51_paired_lost_violation`), long units of a profile overflow the array (`C51_profile_overflow_violation`);
  copying a record with an old header loses the time zone behind an empty type and of profiles
  (`C51_copy_loses_zone_violation`, `C51_copy_profile_violation`).
* Copy and squeeze (C52): every word of the file is looked at, and values that look like the start of a record
  are copied as one, which adds records (`C52_extra_record_violation`) or destroys others
  (`C52_lost_values_violation`); incomplete pathnames are completed (`C52_short_name_violation`); the catalog
  of the copy shows the time of the copying (`C52_catalog_time_violation`).
* Text and arrays (C53): a user header of an odd number of ints gets blanks (`C53_user_header_violation`); a
  text cannot be replaced by a table (`C53_text_table_violation`); finding of C28 reached through labels
  (`C53_overlap_violation`).
* Paired data (C54): a partial read without a last curve returns no labels (`C54_labels_violation`); two digits of
  precision for the values are added to those of the ordinates (`C54_precision_violation`).
* Parts of paired data (C55): version and time of last write stay (`C55_unnoticed_violation`); the second of two labels
  becomes empty (`C55_labels_violation`); a longer label cuts the last one (`C55_cut_violation`).
* Locations (C56): a time zone of 4, 8, … bytes is returned without a zero byte behind it (`C56_unterminated_violation`),
  one of more than 72 bytes is dropped (`C56_long_zone_violation`); the point 0, 0 without datum cannot be stored, even to
  replace another (`C56_origin_violation`); other records of the name are read as a location
  (`C56_other_type_violation`); with long parts nothing is deleted (`C56_delete_violation`).
* Public interface: hec_dss_textStore stops at the first character outside of ASCII and takes blanks off the end, and then
  reads as many bytes as the caller said from the shorter copy (`C57_utf8_violation`, `C57_blank_end_violation`); the
  text read has no zero byte behind it (`C57_unterminated_violation`); arrays of another length are silently not read
  (`C57_length_violation`). hec_dss_pdStore drops all units and types if the first is null (`C58_units_violation`) and
  reads null pointers if another is (`C58_null_violation`). hec_dss_locationRetrieve reads behind time zones of four,
  eight, … bytes (`C59_unterminated_violation`). hec_dss_catalog cuts pathnames silently (`C60_cut_violation`).

- zspatialGridRetrieve looks for each string behind the copy of the one before, and the copy lacks trailing blanks: units
  stored with a blank at the end shift the data source, reference system and time zone (`C61_blank_violation`). It does not
  read the version of the grid (`C61_version_violation`). zspatialGridStore accepts types that zspatialGridRetrieve refuses
  (`C61_type_violation`). hec_dss_gridStore cuts strings at the first byte that is not ASCII (`C62_characters_violation`).

- normalizeFPart accepts times that do not exist (`C65_times_violation`), an F part with a wrong tag is used as plain text if it
  begins with a text and ends in a bar (`C65_masked_violation`), and normalizeFPartInPathname cuts parts at 128 characters
  (`C65_long_parts_violation`).

- hec_dss_tsRetrieve reads quality flags through a null pointer if they are asked for and the series has none
  (`C66_quality_violation`). ztsStore and ztsRetrieve put the tags of an F part in order only in the struct, after the name of the
  records was made (ztsProcessTimes): a series stored under one order of tags is not found under another (`C66_tags_violation`).

- C67: hec_dss_tsStoreIregular puts the caller's quality flags into the struct but not their size: they are dropped without a word
  (`C67_quality_violation`).
- C68: storing a new record (text, paired data, array, grid) under a pathname whose E part is one or two characters and MIN -
  `15MIN`, but also `ADMIN` - succeeds, and the record can never be read: zcheck looks for the pathname and then for the one with
  Minute, and the hash codes and length of the second are left in ifltab; zwriteNew files the record under them, with the
  text of the first (and the bytes behind it in memory). Every store adds one more such record (`C68_lost_violation`). If
  there is a record under the name with Minute, it is overwritten (`C68_overwritten_violation`) or deleted.
- C69: the range of a block of yearly data that was stored in more than one call is one day early if the first year of the
  century is a leap year: 2000 and 2002 give 30 December 2000 to 30 December 2002 (`C69_yearly_violation`). The offset of a series is ignored
  (`C69_offset_violation`).
- C70: hec_dss_dataType of a series stored in doubles over one in floats is still 100 (`C70_stale_type_violation`).
  zgetRecordBasics7 compares the pathname with the address of its entry instead of with a pathname; when they agree, as they do
  for the empty pathname, the status it returns was never set (`C70_empty_violation`).
- C71: zsqueeze7 empties the file in place before it copies the temporary file back (`C71_empty_violation`): after a crash
  the file cannot be opened, and its only copy is /tmp/NAME_squ.dss, which the squeeze of any file of the same name in any
  directory removes (`C71_other_file_violation`, `C71_shared_temp_violation`).  copyFile ends at the first word of the last 32768
  that is the end flag, so two values with the bits of -97532 cut the file off (`C71_end_flag_violation`).  The check of the
  temporary file (zsqueeze7.c:369-370) has no effect: zisError of a number of errors is never true.  copyFile returns the
  status of its last write only, and counts an interrupt as success.

- C73: undelete gives the entry in the bin the status 0 and zcheckPathnameBins counts that as an error
  (`C73_undelete_violation`); its result depends on the message level (`C73_messages_violation`); zcheckInfo refuses pathnames of
  392 characters, which are stored and read (`C73_long_name_violation`); zcheckLinks takes every word that is the info flag as a
  record (`C73_look_alike_violation`); zcheckInfo reads 18 ints at the header of a time series of any length, behind the end of
  the file if it is the last record (`C73_short_header_violation`).

- C66, C67: a store over several blocks that fails leaves the blocks before the failing one stored (`C66_half_stored_violation`,
  `C67_half_stored_violation`).

- C74: hec_dss_tsGetSizes counts all positions of the blocks that the window touches, but nothing for blocks that are not in the
  file (`C74_absent_block_violation`: 120 for a window of 371 values); another spelling of the interval gives 0 values and success
  (`C74_spelling_violation`); an E part that is no interval is an endless loop, for every file (`C74_endless_violation`); a window that
  ends before it starts returns an uninitialised variable (`C74_reversed_violation`).
- C75: hec_dss_tsRetrieveInfo finds exact names of blocks only, not the pathname with which the values were stored
  (`C75_series_name_violation`), and takes any record for a series (`C75_other_record_violation`).
- C76: zgetDataCRC reads the third array with the length of the first: memory behind it, or not all of it (`C76_third_array_violation`,
  `C76_third_case_violation`, `C76_unseen_violation`; the internal header with units and type is not in the sum either); records of zeros
  have the check sum 0 of a missing record (`C76_zeros_violation`); a change of a double can go unseen (`C76_double_violation`).
- C77: with check sums zwhatChanged does not list new records, against its comment (`C77_new_record_violation`); a write in the millisecond
  of the start is missed (`C77_same_time_violation`), as are undeleted records and records renamed to a name used before
  (`C77_undelete_violation`, `C77_rename_violation`), and zeros that become more (`C77_zeros_violation`); a refused write makes a record
  a changed one (`C77_refused_violation`).  zwhatChangedCompare.c:168 allocates recordType and never fills it.
- C78: zundeleteAll undeletes a pathname that was written again, or deleted twice, so that the file has two records of one pathname
  (`C78_written_again_violation`, `C78_deleted_twice_violation`), and does not say that a deleted record's entry was taken by a new record
  (`C78_place_taken_violation`; the count of deleted records in the file header still has it).
- C79: a sequence number of seven digits, or a negative one, makes zpathnameSetPart write a byte behind the new pathname
  (`C79_large_number_violation`); with eight digits the pathname comes back without it (`C79_larger_number_violation`); the end of an F part of
  more than 119 characters is lost (`C79_long_part_violation`).
- C80: members whose sequence has another length than that of the seed are not found (`C80_length_violation`), nor any other member when the F
  part of the seed has fewer than nine characters (`C80_short_violation`).
- C81: zpathnameCompareCollection does not look whether the second pathname is a member (`C81_no_member_violation`) and reads beyond its end
  (`C81_short_violation`).

- C82: zfileSize returns 0 for every file, so that zbinaryStoreFromFile always fails (`C82_store_violation`); zbinaryRetrieveToFile opens its
  output for reading, so that it never writes (`C82_retrieve_violation`).
- C83: a file with zero bytes is stored without what follows them (`C83_zero_byte_violation`); for a pathname without record
  ztextRetrieveToFile empties the output file and returns 0 (`C83_not_found_violation`).
- C84: names of more than 1023 characters are cut (`C84_long_violation`), those of 1020 to 1023 get a part of the extension
  (`C84_cut_violation`), ".dss" becomes ".dss.dss" (`C84_bare_extension_violation`), "" is read at -1 (`C84_empty_violation`).
- C85: the size of the header is taken from the file, and word 99 is read whatever it is (`C85_header_size_violation`).
- C86: a sorted catalog of deleted records may be stored as the list of all records (`C86_deleted_violation`); names without six parts and
  lines over 399 characters give out records twice and others not at all (`C86_parts_violation`, `C86_long_violation`).
- C87: the widths of the columns of the D and F parts are exchanged, so series with F parts of less than ten characters are not sorted by date
  (`C87_date_violation`) and long F parts are cut (`C87_F_violation`); an irregular series shifts the columns behind it (`C87_interval_violation`).

- C88: the lines that keep version and time of last write of the original read them from the block that the write of the
  duplicate has just filled (`C88_time_violation`).
- C89: zcopyRecord looks for the D and E parts of each pathname at the position they have in the other one
  (`C89_wrong_month_violation`, `C89_lengths_violation`).
- C90: getDateAndTime divides the seconds of the unit by 60 and so loses half minutes and a unit given as 0
  (`C90_half_minutes_violation`, `C90_default_unit_violation`), divides by zero for units over a day (`C90_long_unit_violation`), and
  minutes or milliseconds before the origin give texts that are no times (`C90_negative_minutes_violation`, `C90_negative_mills_violation`).
- C91: the pathname is compared with the bytes of an address instead of the pathname in memory (`C91_empty_violation`), so that an empty
  pathname is always found.
- C92: zerrorEncodeHigh adds to a negative code: every caller lowers the severity; invalid arguments are no longer errors after one
  caller (`C92_invalid_argument_violation`), the calling function is named wrong (`C92_caller_violation`), memory errors become file errors
  (`C92_type_violation`) and small statuses become success (`C92_small_status_violation`).
- C93: charInt measures the labels of a surface if their length is 0, also when there are none (`C93_no_labels_violation`); zwrite takes
  labels for a string of the user header and puts blanks behind it (`C93_label_end_violation`, `C93_label_lost_violation`).
- C94: the types asked for have no effect when dates and conditions are asked for in a catalog, so a pattern or a text that differs from a
  series in the D part only makes the range of the whole series fail (`C94_pattern_violation`, `C94_text_violation`). The E part of the
  name asked for is normalized before the search, that of the records is not (`C94_interval_violation`). ztsGetPathTimeWindow copies the
  first date of a D part into 20 characters (`C94_long_date_violation`).
- C95: ztsRetrievePattern frees the time window before the times are made from it, so hec_dss_tsRetrieve leaves the caller's array of times
  of a regular pattern as it was (`C95_times_violation`); asked for quality flags it copies them from a null pointer
  (`C95_quality_violation`). The range of a pattern is taken from its number of values and ends one interval after the last one
  (`C95_range_violation`). The base date of an irregular pattern is not stored (`C95_base_violation`), and times that do not ascend are
  accepted, which for irregular series they are not (`C95_order_violation`).
- C97: zsqueeze7 lowers and restores the levels of messages with zsetMessageLevel(level of group i, ...) instead of the number i, so levels
  that differ are not restored (`C97_squeeze_violation`). zsetMessageGroupLevel compares three letters, so "time_series_write" sets the level
  of "time_series_read" (`C97_name_violation`). zset("mlvl", v) maps v to another scale than zquery("mlvl") gives (`C97_restore_violation`).
- C96: zquery("curr") fails while the total is not positive (`C96_current_violation`).
- C98: b64Decode gives the number of characters it read instead of the number of bytes (`C98_length_violation`), refuses texts of one group
  because it compares the length of the result with 4 (`C98_short_violation`), and never finds an invalid character because it compares a
  signed char with 255 (`C98_characters_violation`).
- C99: insertIntoDelimitedString returns -1 only after it has removed the old entry and written the part that fits, and has no room checked
  for the delimiter; the text then has no zero at its end (`C99_end_violation`, `C99_lost_violation`). ztsStore calls it with the length of
  the text as its size and, after the -1, takes strlen of it. An empty value swallows the next entry or is read past the end
  (`C99_empty_violation`, `C99_outside_violation`), and a name is found inside a longer name (`C99_name_violation`).
- C100: the lengths of the longest parts are never lowered: they stay when the record with the longest part is deleted or renamed
  (`C100_not_lowered_violation`).
- C101: zgetMyLastWriteTime, "the last write for this process", leaves out deletes, so that zcheckAccessReset takes a process that has just deleted a
  record for quiet (`C101_own_delete_violation`); the time of the file also moves when a write is refused or nothing is deleted
  (`C101_no_write_violation`); a change in the millisecond of the time remembered is not noticed (`C101_same_time_violation`).
- C102: a struct with a pointer to an empty array, or without a logical number of values, is not equal to what is read after it was written
  (`C102_null_violation`, `C102_logical_violation`); an exact comparison takes `/[/` and `/{/` for one pathname (`C102_braces_violation`).
- C103: ztsIsCurrentTimeSeries says no before the day of the D part, though that day is in the block (`C103_day_violation`), and at midnight of the
  first day of a block (`C103_midnight_violation`); it changes the caller's pathname (`C103_changed_violation`); a range of dates with a long first
  date is written behind `date[20]` (`C103_range_violation`).
- C104: longWithCommas writes a shortened number without an error if the array is too short (`C104_short_violation`), and behind the array if the
  text with its sign just fills it (`C104_outside_violation`).
- C105: a file of 81,921 to 100,000 records (163,481 to 500,000, 327,681 to a million) that has just been squeezed should be squeezed again: zsqueezeNeeded
  wants a larger table than znewFileSize gives (`C105_again_violation`).  So should any file with more records than that if it was made for up to 100,000
  pathnames, since a squeeze keeps that number (`C105_expected_violation`).
- C106: zcatalogFile without a name empties the DSS file itself, if its full name does not end in ".dss" in small letters (`C106_destroys_violation`).
  zopen takes such names, ".DSS" for one (`C106_capitals_violation`); a new file opened as "a.dss" is emptied as well (`C106_short_name_violation`).

Seen while reading, without a theorem
* ztsProcessTimes:116-131 takes a window within 31 Dec 1899 (or 30 Dec) as no window; a start date that cannot be read is not
  refused (lines 429-440 set startDefined, so the check at 506 never fires); a window of 1,000,000 days or more gets times in
  hours, also for shorter intervals.
* zput.c:92 accepts 100,000,000 ints, zget.c:96 refuses more than 10,000,000: such a record cannot be read.
* An in-place squeeze truncates the original before the records are copied back (zsqueeze7.c:415-454); a crash
  in between leaves the data in the temporary file only. zcopyRecordInternal.c:304-312 stores locations again.
* ztsStoreIrreg7:320 and ztsStoreReg7:237 (pattern paths) lock on where they should unlock;
  zreadInternal / zwriteInternal return after errors without unlocking.
* ztsDisaggregate:288 divides by a size read, which may be 0; ztsProcessTimes:403-410 decrements the
  caller's numberValues for good; ztsRegReadBlock:411 uses the notes position for character notes.
* binSize < 58 is accepted, an entry then does not fit; zbinNew links the new block before zeroing it, so a
  crash in between can leave an empty bin; zcheckInternal does not end on a cyclic chain.
* zreclaimSet(NONE) leaves reclaim on when nothing was reclaimed yet; RECLAIM_EXCESS releases deleted
  records although they are documented as recoverable.
* zisaCollection looks for the bar beyond the F part's slash and for `C:` in any part: a wrong answer only changes a counter.
* zrename computes the new info size from the pathname before the D/E parts are replaced.
* int overflow of (julianBlock-base)*86400 at second granularity beyond 68 years.
