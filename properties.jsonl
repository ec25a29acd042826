{"id": "C01", "title": "Calendar dates map to consecutive Julian days", "statement": "yearMonthDayToJulian numbers the days of the proleptic Gregorian calendar consecutively with 01Jan1900 = 1: the day after any date (year 5 or later) has the next integer.", "quantifier": "every calendar date of year >= 5 (all years, no upper bound)", "why_tests_cant": "unboundedly many dates; leap century rules interact with month and year boundaries", "anchors": ["heclib/heclib_c/src/Utilities/DateTime/yearMonthDayToJulian.c:yearMonthDayToJulian", "heclib/heclib_c/src/Utilities/DateTime/isLeapYear.c:isLeapYear"]}
{"id": "C02", "title": "Julian days convert back to the same date", "statement": "julianToYearMonthDay inverts yearMonthDayToJulian: a stored time stamp is always reported as the date it was written with, and always as a valid month and day of month.", "quantifier": "every calendar date of year >= 5 and every first guess of the year within the search window", "why_tests_cant": "all dates; correctness of the year search depends on the floating point first guess", "anchors": ["heclib/heclib_c/src/Utilities/DateTime/julianToYearMonthDay.c:julianToYearMonthDay"]}
{"id": "C03", "title": "Out of range months roll over to the right year", "statement": "yearMonthDayToJulian with a month number outside 1..12 names the same day as the date moved by that number of months; incrementing by months relies on it.", "quantifier": "every year >= 5 (after normalisation), every integer month, every day", "why_tests_cant": "all integers, including negative months where C division truncates", "anchors": ["heclib/heclib_c/src/Utilities/DateTime/yearMonthDayToJulian.c:yearMonthDayToJulian"]}
{"id": "C04", "title": "Day of week advances by one per day", "statement": "dayOfWeek returns a number 1..7 that follows the real seven day cycle for every date the library can store.", "quantifier": "every integer Julian day (dates before 1900 are negative)", "why_tests_cant": "the C remainder operator changes sign for negative days, which a test of recent dates never sees", "anchors": ["heclib/heclib_c/src/Utilities/DateTime/dayOfWeek.c:dayOfWeek"]}
{"id": "C05", "title": "Time normalisation keeps the instant", "statement": "cleanTime brings any defined (day, time) pair (neither day = undefined nor the pair 0,0, which also means undefined) to the unique representation with 1 <= time <= one day and does not change the instant represented.", "quantifier": "every day, every (positive, zero, negative) time of day, every granularity", "why_tests_cant": "all integers and granularities", "anchors": ["heclib/heclib_c/src/Utilities/DateTime/cleanTime.c:cleanTime"]}
{"id": "C06", "title": "Time comparison is a total order on instants", "statement": "For defined times compareTimes is negative, zero or positive exactly as the first instant is before, equal to or after the second, regardless of granularity and base date used to express them.", "quantifier": "all pairs of instants, base dates and granularities", "why_tests_cant": "infinite domain, must be a consistent order for binary searches and merges", "anchors": ["heclib/heclib_c/src/Utilities/DateTime/compareTimes.c:compareTimes", "heclib/heclib_c/src/Utilities/DateTime/isTimeInRange.c:isTimeInRange"]}
{"id": "C07", "title": "Incrementing a time by n intervals adds exactly n*interval", "statement": "For intervals shorter than ten days incrementTime moves the instant by exactly periods*interval seconds, returns a normalised time, and two increments compose to one (except where the sum is day 0 time 0, which encodes an undefined time).", "quantifier": "every interval below ten days, every number of periods (negative too), every start", "why_tests_cant": "all integers; composition over histories of increments", "anchors": ["heclib/heclib_c/src/Utilities/DateTime/incrementTime.c:incrementTime"]}
{"id": "C08", "title": "numberPeriods counts the increments", "statement": "For intervals shorter than ten days numberPeriods(t, incrementTime(t, n)) = n, so value positions computed on write and on read agree.", "quantifier": "every interval below ten days, every n, every start", "why_tests_cant": "all integers", "anchors": ["heclib/heclib_c/src/Utilities/DateTime/numberPeriods.c:numberPeriods", "heclib/heclib_c/src/Utilities/DateTime/incrementTime.c:incrementTime"]}
{"id": "C09", "title": "Month and year increments stay on end of period", "statement": "incrementTime with a tri-month, semi-month, monthly or yearly interval applied to a standard end of period time yields the end of period n periods later, and composes additively.", "quantifier": "every year, month and integer n", "why_tests_cant": "all integers; month lengths and leap years", "anchors": ["heclib/heclib_c/src/Utilities/DateTime/incrementTime.c:incrementTime", "heclib/heclib_c/src/Public/ztsOffsetAdjustToStandard.c:ztsOffsetAdjustToStandard"]}
{"id": "C10", "title": "numberPeriods counts whole years and months", "statement": "numberPeriods between two standard (end of period) times of a tri-month, semi-month, monthly or yearly series is the number of periods between them.", "quantifier": "all pairs of years and months", "why_tests_cant": "the yearly formula is only wrong when month or day differ", "anchors": ["heclib/heclib_c/src/Utilities/DateTime/numberPeriods.c:numberPeriods"]}
{"id": "C11", "title": "Offsets and standard times are inverse", "statement": "For an interval, every time has an offset in [0, interval), removing it gives a standard time at or after it, and adding the offset back to the standard time gives the original time.", "quantifier": "every instant and every interval of one week or less, months and years", "why_tests_cant": "all instants", "anchors": ["heclib/heclib_c/src/Public/ztsOffset.c:ztsOffset", "heclib/heclib_c/src/Public/ztsOffsetAdjustToStandard.c:ztsOffsetAdjustToStandard", "heclib/heclib_c/src/Public/ztsOffsetAdjustToOffset.c:ztsOffsetAdjustToOffset"]}
{"id": "C12", "title": "Blocks partition time", "statement": "Block start dates computed for a time are at or before the time and the next block start is after it, and stepping from block to block visits consecutive, non overlapping, gap free blocks.", "quantifier": "every day from year 100 on and every interval / irregular block size", "why_tests_cant": "all days; month, year, decade and century boundaries", "anchors": ["heclib/heclib_c/src/Internal/ztsRegGetBlockStart.c:ztsRegGetBlockStart", "heclib/heclib_c/src/Internal/ztsIrregGetBlockStart.c:ztsIrregGetBlockStart", "heclib/heclib_c/src/Internal/ztsIncrementBlock.c:ztsIncrementBlock"]}
{"id": "C13", "title": "Interval names and seconds convert both ways", "statement": "For every standard interval, the name obtained from its length in seconds converts back to the same length, lengths are positive and strictly ordered, and no two regular intervals share a name or a length.", "quantifier": "every standard interval of both file versions", "why_tests_cant": "needs the whole table and every lookup order", "anchors": ["heclib/heclib_c/src/SemiPublic/ztsGetStandardInterval.c:ztsGetStandardInterval", "heclib/heclib_c/src/headers/standardIntervals.h:eParts7"]}
{"id": "C14", "title": "Interval names are recognised regardless of letter case", "statement": "Looking up an E part gives the same interval whatever the case of its letters, and a full interval name is never mistaken for another interval.", "quantifier": "every string", "why_tests_cant": "all strings and prefixes", "anchors": ["heclib/heclib_c/src/SemiPublic/ztsGetStandardInterval.c:ztsGetStandardInterval", "heclib/heclib_c/src/Public/zpathnameCompare.c:zstringCompare"]}
{"id": "C15", "title": "Times of day survive formatting and parsing", "statement": "secondsToTimeString followed by timeStringToSeconds returns the same time of day.", "quantifier": "every second of the day, every millisecond, every style", "why_tests_cant": "86400 times several styles times separators", "anchors": ["heclib/heclib_c/src/Utilities/DateTime/secondsToTimeString.c:secondsToTimeString", "heclib/heclib_c/src/Utilities/DateTime/timeStringToSeconds.c:timeStringToSeconds"]}
{"id": "C16", "title": "Years with two digits and centuries", "statement": "addCentury leaves four digit years alone and maps two digit years to this century; it is idempotent.", "quantifier": "every year", "why_tests_cant": "all integers", "anchors": ["heclib/heclib_c/src/Utilities/DateTime/addCentury.c:addCentury"]}
{"id": "C17", "title": "Pairs of 32 bit integers survive packing in 64 bit words", "statement": "i8toi4(i4toi8(a,b)) = (a,b) and i4toi8(i8toi4(w)) = w on machines of either byte order, and both byte orders give the same word.", "quantifier": "all pairs of ints and all words", "why_tests_cant": "2^64 cases", "anchors": ["heclib/heclib_c/src/Utilities/i4toi8.c:i4toi8", "heclib/heclib_c/src/Utilities/i8toi4.c:i8toi4"]}
{"id": "C18", "title": "Byte swapping is its own inverse", "statement": "zswap and zswitchInts applied twice give back the array, whatever its length; zswap of one word reverses its bytes.", "quantifier": "arrays of any length and content", "why_tests_cant": "all arrays", "anchors": ["heclib/heclib_c/src/System/zswap.c:zswap", "heclib/heclib_c/src/System/zswitchInts.c:zswitchInts"]}
{"id": "C19", "title": "Repeat compression loses nothing", "statement": "Values, quality or notes compressed with the repeat bit map are recovered exactly by uncompressing the whole block or any window of it.", "quantifier": "arrays of any length, any element size, any window start and end", "why_tests_cant": "all contents and window positions, bit map word boundaries", "anchors": ["heclib/heclib_c/src/Internal/ztsRegRepeatCompress.c:ztsRegRepeatCompress", "heclib/heclib_c/src/Internal/ztsRegRepeatUncompress.c:ztsRegRepeatUncompress"]}
{"id": "C20", "title": "Error codes identify their parts", "statement": "zerrorDecode recovers severity, functions, error and system status from zerrorEncode; every encoded error is negative, every one of severity invalid-argument or worse is recognised by zisError (warnings and informational codes are not) and no success or record-not-found status is.", "quantifier": "all field values in their two digit ranges", "why_tests_cant": "10^9 combinations", "anchors": ["heclib/heclib_c/src/Internal/zerrorEncode.c:zerrorEncode", "heclib/heclib_c/src/Internal/zerrorDecode.c:zerrorDecode", "heclib/heclib_c/src/SemiPublic/zisError.c:zisError", "heclib/heclib_c/src/Internal/zerrorSeverity.c:zerrorSeverity"]}
{"id": "C21", "title": "Path hashing ignores case and stays in the table", "statement": "The record and table hash of a pathname do not depend on letter case, the record hash is never zero (zero marks an empty slot), and the table hash is a valid table index.", "quantifier": "every byte string, every table size", "why_tests_cant": "all strings", "anchors": ["heclib/heclib_c/src/Internal/zhash.c:zhash"]}
{"id": "C22", "title": "Pathname parts survive forming and parsing", "statement": "zpathnameGetPart(i) of zpathnameForm(A..F) is the trimmed i-th part (its first 128 characters), and zpathnameSetPart changes that part of a complete pathname only.", "quantifier": "all parts without a slash, all part positions", "why_tests_cant": "all strings", "anchors": ["heclib/heclib_c/src/Public/zpathnameForm.c:zpathnameForm", "heclib/heclib_c/src/Public/zpathnameGetPart.c:zpathnameGetPart", "heclib/heclib_c/src/Public/zpathnameSetPart.c:zpathnameSetPart", "heclib/heclib_c/src/Public/zpathnamePartPositions.c:zpathnamePartPositions"]}
{"id": "C23", "title": "Pathname buffers are never overrun", "statement": "zpathnameForm, zpathnameClean and zpathnameSetPart write only inside the buffer size they are given.", "quantifier": "all strings and buffer sizes", "why_tests_cant": "depends on exact lengths at the buffer boundary", "anchors": ["heclib/heclib_c/src/Public/zpathnameForm.c:zpathnameForm", "heclib/heclib_c/src/Public/zpathnameClean.c:zpathnameClean", "heclib/heclib_c/src/Public/zpathnameSetPart.c:zpathnameSetPart"]}
{"id": "C24", "title": "Pathname comparison is case insensitive equality", "statement": "zpathnameCompare and zstringCompare accept exactly the strings equal up to letter case over the compared length; the relation is an equivalence.", "quantifier": "all pairs of strings", "why_tests_cant": "all strings", "anchors": ["heclib/heclib_c/src/Public/zpathnameCompare.c:zpathnameCompare", "heclib/heclib_c/src/Public/zpathnameCompare.c:zstringCompare"]}
{"id": "C25", "title": "Free space is never handed out twice", "statement": "Space returned by zgetFileSpace never overlaps space still in use or space still in the reclaim table, and reclaimed space plus live space never exceeds the file.", "quantifier": "every sequence of allocations and releases, any table size", "why_tests_cant": "histories of any length", "anchors": ["heclib/heclib_c/src/Internal/zgetFileSpace.c:zgetFileSpace", "heclib/heclib_c/src/Internal/zreleaseFileSpace.c:zreleaseFileSpace"]}
{"id": "C26", "title": "Write buffering is invisible", "statement": "Any sequence of buffered writes, reads and flushes returns and finally leaves on disk exactly what unbuffered writes would.", "quantifier": "all sequences, addresses, lengths and buffer sizes", "why_tests_cant": "histories of any length", "anchors": ["heclib/heclib_c/src/Internal/zputBuff.c:zputBuff", "heclib/heclib_c/src/Internal/zgetBuff.c:zgetBuff", "heclib/heclib_c/src/Internal/zflushBuffers.c:zflushBuffers"]}
{"id": "C27", "title": "A read returns what was last written", "statement": "After any sequence of record writes and deletes, reading a pathname returns the header and data of the last write to that pathname (ignoring letter case), or not-found if there is none since its last deletion.", "quantifier": "all histories, all pathnames (hash collisions included), all record sizes", "why_tests_cant": "histories of any length, collisions", "anchors": ["heclib/heclib_c/src/Internal/zwriteInternal.c:zwriteInternal", "heclib/heclib_c/src/Internal/zreadInternal.c:zreadInternal", "heclib/heclib_c/src/Internal/zcheckInternal.c:zcheckInternal", "heclib/heclib_c/src/Internal/zwriteNew.c:zwriteNew", "heclib/heclib_c/src/Internal/zwriteExisting.c:zwriteExisting", "heclib/heclib_c/src/Internal/zbinUpdate.c:zbinUpdate"]}
{"id": "C28", "title": "Operations on one record leave all other records alone", "statement": "Writing, growing or deleting a record changes neither the contents nor the existence of any record with a different pathname.", "quantifier": "all files, all pairs of pathnames, all record sizes", "why_tests_cant": "histories of any length; overlap appears only for particular size patterns", "anchors": ["heclib/heclib_c/src/Internal/zwriteInternal.c:zwriteInternal", "heclib/heclib_c/src/Internal/zwriteExisting.c:zwriteExisting", "heclib/heclib_c/src/Internal/zdeleteInternal.c:zdeleteInternal"]}
{"id": "C29", "title": "Deleting hides exactly one record and undelete brings it back", "statement": "After zdelete the pathname is not found; deleting a missing record reports not-found and changes nothing; zundelete right after zdelete restores the record with its data.", "quantifier": "all files and pathnames", "why_tests_cant": "histories", "anchors": ["heclib/heclib_c/src/Internal/zdeleteInternal.c:zdeleteInternal", "heclib/heclib_c/src/DssInterface/v6and7/zundelete.c:zundelete"]}
{"id": "C30", "title": "The file layout stays well formed", "statement": "Every bin chain is acyclic and stays inside the file; record areas, bins, hash table and header never overlap, after any sequence of operations.", "quantifier": "all histories", "why_tests_cant": "reachability over unbounded histories", "anchors": ["heclib/heclib_c/src/Internal/zbinNew.c:zbinNew", "heclib/heclib_c/src/Internal/zbinUpdate.c:zbinUpdate", "heclib/heclib_c/src/Internal/zwriteNew.c:zwriteNew", "heclib/heclib_c/src/Internal/zwriteExisting.c:zwriteExisting"]}
{"id": "C31", "title": "Version numbers count writes", "statement": "A new record has version 1 and every further write of the same record increases its version by one.", "quantifier": "all histories", "why_tests_cant": "histories", "anchors": ["heclib/heclib_c/src/Internal/zwriteNew.c:zwriteNew", "heclib/heclib_c/src/Internal/zwriteExisting.c:zwriteExisting"]}
{"id": "C32", "title": "The record count equals the number of records", "statement": "The number of records reported for a file is the number of pathnames that can be read.", "quantifier": "all histories of writes and deletes", "why_tests_cant": "histories", "anchors": ["heclib/heclib_c/src/Internal/zwriteNew.c:zwriteNew", "heclib/heclib_c/src/Internal/zdeleteInternal.c:zdeleteInternal"]}
{"id": "C33", "title": "Rewriting a record in place stays inside its allocation", "statement": "When a record is rewritten without moving, the words written lie inside the space allocated to that record.", "quantifier": "all old and new section sizes", "why_tests_cant": "depends on parity combinations of seven section sizes", "anchors": ["heclib/heclib_c/src/Internal/zwriteExisting.c:zwriteExisting", "heclib/heclib_c/src/Internal/zwriteNew.c:zwriteNew"]}
{"id": "C34", "title": "Status filtering", "statement": "A lookup wanting valid records never returns a deleted, renamed or moved one, a lookup wanting deleted ones never returns a valid one.", "quantifier": "all status codes and filters", "why_tests_cant": "all pairs", "anchors": ["heclib/heclib_c/src/Internal/zcompareRecordStatus.c:zcompareRecordStatus"]}
{"id": "C35", "title": "At most one process writes", "statement": "Two processes never both hold the write lock, whatever the interleaving of lock and unlock calls and of switches between single and multi user mode.", "quantifier": "every number of processes and every schedule", "why_tests_cant": "schedules", "anchors": ["heclib/heclib_c/src/Internal/zlockActive.c:zlockActive", "heclib/heclib_c/src/Internal/zlockPassive.c:zlockPassive", "heclib/heclib_c/src/System/zlockdss.c:zlockDss"]}
{"id": "C36", "title": "Merging irregular data keeps time order and lets new data win", "statement": "Merging stored and new irregular values gives strictly increasing times, contains every new value, every stored value whose time is not rewritten, and nothing else.", "quantifier": "all sorted inputs of any length", "why_tests_cant": "all interleavings", "anchors": ["heclib/heclib_c/src/Internal/ztsIrregMergeBlocks.c:ztsIrregMergeBlocks"]}
{"id": "C37", "title": "Replacing irregular data over a window keeps the rest", "statement": "Storing irregular data in replace mode removes the stored values inside the window, adds the new ones and keeps all stored values outside it.", "quantifier": "all sorted inputs, all windows", "why_tests_cant": "data before and after the window in all proportions", "anchors": ["heclib/heclib_c/src/Internal/ztsIrregMergeBlocks.c:ztsIrregMergeBlocks"]}
{"id": "C38", "title": "Storage flags of regular data decide value by value", "statement": "Storing into a regular block replaces all positions (flag 0), only missing stored values (flag 1), or only where the new value is not missing (flag 4), and leaves every position outside the stored range unchanged.", "quantifier": "all block sizes, positions and values", "why_tests_cant": "all positions and lengths", "anchors": ["heclib/heclib_c/src/Internal/ztsRegStoreBlock.c:ztsRegStoreBlock"]}
{"id": "C39", "title": "Regular series read back what was stored", "statement": "Retrieving any window of a regular series returns for each position the last value stored at that time and missing elsewhere, across block boundaries and after trimming of missing values.", "quantifier": "all series lengths, starts and block splits", "why_tests_cant": "all windows and histories", "anchors": ["heclib/heclib_c/src/Internal/ztsStoreReg7.c:ztsStoreReg7", "heclib/heclib_c/src/Internal/ztsRetrieveReg7.c:ztsRetrieveReg7", "heclib/heclib_c/src/Internal/ztsRegReadBlock.c:ztsRegReadBlock"]}
{"id": "C40", "title": "Trimming removes only missing ends", "statement": "ztsTrim removes exactly the leading and trailing missing values and keeps first and last valid values and everything between, together with their times.", "quantifier": "all series", "why_tests_cant": "all positions", "anchors": ["heclib/heclib_c/src/Internal/ztsTrim.c:ztsTrim", "heclib/heclib_c/src/Internal/ztsFirstLastValidValues.c:ztsFirstLastValidValues"]}
{"id": "C41", "title": "A crash during a write leaves other records readable", "statement": "If the process stops after any prefix of the disk writes that make up storing a record, every other record still reads back unchanged, and the record itself is old, new, or reported missing until its catalogue entry is written.", "quantifier": "every crash point of every write", "why_tests_cant": "crash points times histories", "anchors": ["heclib/heclib_c/src/Internal/zwriteInternal.c:zwriteInternal", "heclib/heclib_c/src/Internal/zwriteNew.c:zwriteNew", "heclib/heclib_c/src/Internal/zbinUpdate.c:zbinUpdate"]}
{"id": "C42", "title": "Packed time series data are unpacked unchanged", "statement": "Any window of the values, quality flags and notes of a time series block, packed (with repeats removed when the library decides so) in a record's data area, is unpacked to exactly the elements given, and packing never writes beyond the work array.", "quantifier": "all element sizes, numbers of elements, windows and decisions to compress", "why_tests_cant": "all patterns of repeats", "anchors": ["heclib/heclib_c/src/Internal/ztsAggregate.c:ztsAggregate", "heclib/heclib_c/src/Internal/ztsDisaggregate.c:ztsDisaggregate", "heclib/heclib_c/src/Internal/ztsRegRepeatCompress.c:ztsRegRepeatCompress"]}
{"id": "C43", "title": "No update of the file header is lost between processes", "statement": "An update that one process made to the file's bookkeeping (sizes, addresses, counts) is on disk after it unlocks and is never overwritten by another process working from an older copy.", "quantifier": "every number of processes and every schedule, processes dying included", "why_tests_cant": "schedules and crash points", "anchors": ["heclib/heclib_c/src/Internal/zlockActive.c:zlockActive", "heclib/heclib_c/src/Internal/zpermRead.c:zpermRead", "heclib/heclib_c/src/Internal/zpermWrite.c:zpermWrite", "heclib/heclib_c/src/Public/zrename.c:zrename"]}
{"id": "C44", "title": "A single user gives way to a second writer", "statement": "A process that keeps the file locked because it is the only writer releases it at the end of its next operation once another process has announced that it wants to write.", "quantifier": "every state of the lock table", "why_tests_cant": "schedules", "anchors": ["heclib/heclib_c/src/Internal/zlockActive.c:zlockActive", "heclib/heclib_c/src/Internal/zlockPassive.c:zlockPassive"]}
{"id": "C45", "title": "Dates written as text read back as the same date", "statement": "A date that the library writes as text in any style showing the day and the full year is read back by the library as the same year, month and day, and a day number survives the conversion to text and back.", "quantifier": "every day, month, year and full style", "why_tests_cant": "the domain of dates times styles is unbounded in the year; tests cover a handful of dates", "anchors": ["heclib/heclib_c/src/Utilities/DateTime/yearMonthDayToDate.c:yearMonthDayToDate", "heclib/heclib_c/src/Utilities/DateTime/dateToYearMonthDay.c:dateToYearMonthDay", "heclib/heclib_c/src/Utilities/DateTime/dateToJulian.c:dateToJulian", "heclib/heclib_c/src/Utilities/DateTime/julianToDate.c:julianToDate", "heclib/heclib_c/src/Utilities/findInt.c:findInt"]}
{"id": "C46", "title": "Irregular series read back what was stored", "statement": "After any sequence of stores of irregular data in the default mode, retrieving any time window returns, in time order, exactly the values in the window that the stores leave, each with its own time, across block boundaries and whatever base dates were used.", "quantifier": "all sequences of stores, numbers of values, block sizes, base dates and windows", "why_tests_cant": "all histories times windows", "anchors": ["heclib/heclib_c/src/Internal/ztsStoreIrreg7.c:ztsStoreIrreg7", "heclib/heclib_c/src/Internal/ztsIrregStoreBlock.c:ztsIrregStoreBlock", "heclib/heclib_c/src/Internal/ztsRetrieveIrreg7.c:ztsRetrieveIrreg7", "heclib/heclib_c/src/Internal/ztsIrregReadBlock.c:ztsIrregReadBlock", "heclib/heclib_c/src/Utilities/DateTime/isTimeInRange.c:isTimeInRange"]}
{"id": "C47", "title": "Previous and next value of a window", "statement": "Asked for the value before and/or after the time window, the retrieval of irregular data adds exactly the last value before the window and/or the first one after it.", "quantifier": "all histories of stores, windows and flags", "why_tests_cant": "all positions of values relative to windows and blocks", "anchors": ["heclib/heclib_c/src/Internal/ztsRetrieveIrreg7.c:ztsRetrieveIrreg7", "heclib/heclib_c/src/Internal/ztsIrregReadBlock.c:ztsIrregReadBlock"]}
{"id": "C48", "title": "The catalog lists exactly the records of the file", "statement": "After any history of writes, deletes and undeletes, the catalog lists every pathname that can be read once and no other, with the type and last write time of the record; a pathname pattern, a range of types, a condition on the last write time and a maximal number of rows select exactly the rows that meet them, in the order of the full catalog.", "quantifier": "all histories, hash collisions, bin sizes and requests", "why_tests_cant": "all histories times requests", "anchors": ["heclib/heclib_c/src/Internal/zcatalogInternal.c:zcatalogInternal", "heclib/heclib_c/src/Internal/zcompareRecordStatus.c:zcompareRecordStatus", "heclib/heclib_c/src/Internal/zbinNew.c:zbinNew", "heclib/heclib_c/src/Internal/zwriteExisting.c:zwriteExisting"]}
{"id": "C49", "title": "Wild characters in a catalog request", "statement": "For a pathname pattern of six parts, the catalog finds exactly the pathnames each of whose parts matches that of the pattern, letter case ignored: a star alone matches anything, a star at the end any continuation, a star at the start any beginning, stars at both ends anything around the text, and other text matches itself; a pattern without six parts finds every pathname.", "quantifier": "all patterns, pathnames and contents of uninitialised memory", "why_tests_cant": "all patterns times pathnames", "anchors": ["heclib/heclib_c/src/Internal/zcatParsePath.c:zcatParsePath", "heclib/heclib_c/src/Internal/zcatComparePath.c:zcatComparePath", "heclib/heclib_c/src/Public/zfindString.c:zfindString"]}
{"id": "C50", "title": "Renaming moves a record and nothing else", "statement": "Renaming a record succeeds if it exists; afterwards it is found unchanged, with its version and time of last write, under the new pathname (time series keep their D and E parts) and no longer under the old one, a record that had the new pathname is gone, and every other record is as before; changing only the case of letters changes no read; renaming a record that does not exist reports that.", "quantifier": "all histories of writes, deletes, undeletes and renames before, all pathnames, hash collisions and sizes", "why_tests_cant": "all histories times pairs of pathnames", "anchors": ["heclib/heclib_c/src/Public/zrename.c:zrename", "heclib/heclib_c/src/Utilities/mallocAndCopyPath.c:mallocAndCopyPath", "heclib/heclib_c/src/Utilities/stringCat.c:stringCat", "heclib/heclib_c/src/Public/zpathnameSetPart.c:zpathnameSetPart", "heclib/heclib_c/src/Internal/zbinUpdate.c:zbinUpdate"]}
{"id": "C51", "title": "Units, type and time zone are kept with the data", "statement": "The units, types and the time zone stored with a time series or paired data are returned when the record is read, without blanks at the ends; a string that was not given is not returned, one the caller already had from the library is kept, nothing outside the arrays is read or written, and a record with a header of an older version keeps its strings when it is copied.", "quantifier": "all strings, given or not, profiles or not, and contents of uninitialised memory", "why_tests_cant": "all combinations of strings and lengths", "anchors": ["heclib/heclib_c/src/Internal/ztsInternalHeaderPack.c:ztsInternalHeaderPack", "heclib/heclib_c/src/Internal/ztsInternalHeaderUnpack.c:ztsInternalHeaderUnpack", "heclib/heclib_c/src/Internal/zpdUnitsToHead.c:zpdUnitsToHead", "heclib/heclib_c/src/Internal/zcharTo8Byte.c:zcharTo8Byte", "heclib/heclib_c/src/Utilities/stringHeaderUtility.c:appendStringToHeader", "heclib/heclib_c/src/Utilities/mallocAndCopyTrim.c:mallocAndCopyTrim", "heclib/heclib_c/src/Internal/zcopyRecordInternal.c:zcopyRecordInternal"]}
{"id": "C52", "title": "A copy of a file has the records of the original", "statement": "Copying all records into a new file, as squeezing a file does, succeeds; the new file has as many records as the original, and reading any pathname gives the same in both: values, headers, type, version and time of the last write. Records that were deleted are not in the copy. The sizes of hash table and bins of the new file may be different. Afterwards the new file behaves like one to which the records had been written.", "quantifier": "all histories of the original, values, pathnames, sizes of both files, and calls on the copy afterwards", "why_tests_cant": "all histories times sizes of two files", "anchors": ["heclib/heclib_c/src/Public/zcopyFile.c:zcopyFile", "heclib/heclib_c/src/Internal/zcopyRecordInternal.c:zcopyRecordInternal", "heclib/heclib_c/src/Public/zsqueeze7.c:zsqueeze7", "heclib/heclib_c/src/Internal/zcompareRecordStatus.c:zcompareRecordStatus"]}
{"id": "C53", "title": "Text and arrays read back as they were stored", "statement": "Text, with its labels and table, and arrays of ints, floats and doubles that are stored are read back element by element, whatever is called next about other records and whatever the letter case of and the blanks behind the pathname; no other record changes. A store whose pathname holds a record of another type is refused and changes no read; a store without a character, or with a number but no characters, is refused. A record of another type is not read as text or arrays.", "quantifier": "all contents, lengths, histories before and after, and pathnames", "why_tests_cant": "all contents times histories", "anchors": ["heclib/heclib_c/src/Public/ztextStore.c:ztextStore", "heclib/heclib_c/src/Public/ztextRetrieve.c:ztextRetrieve", "heclib/heclib_c/src/Public/zarrayStore.c:zarrayStore", "heclib/heclib_c/src/Public/zarrayRetrieve.c:zarrayRetrieve", "heclib/heclib_c/src/DssInterface/v6and7/zwrite.c:zwrite", "heclib/heclib_c/src/Utilities/verticalDatum.c:userHeaderToString"]}
{"id": "C54", "title": "Paired data read back as they were stored", "statement": "Paired data stored as a whole, over no record, over paired data or over a record of another type, are read back number by number, in full or for any range of ordinates and curves, as floats or as doubles, with labels, units, types, axis, precisions and user header, whatever is called next about other records and whatever the letter case of and the blanks behind the pathname; no other record changes. Without data nothing is stored. A record of another type is not read as paired data.", "quantifier": "all data, sizes, labels, strings, ranges asked for, storage flags, histories before and after, and pathnames", "why_tests_cant": "all contents and ranges times histories", "anchors": ["heclib/heclib_c/src/Public/zpdStore.c:zpdStore", "heclib/heclib_c/src/Public/zpdRetrieve.c:zpdRetrieve", "heclib/heclib_c/src/DssInterface/v6and7/zdataType.c:zdataType"]}
{"id": "C55", "title": "Storing a part of paired data replaces this part only", "statement": "Storing values for a range of ordinates and curves of paired data in the file replaces exactly these values, converted to the type in the record; ordinates, other values, labels, units and user header stay, and no other record changes, whatever is called next about other records. Where there is no paired data record nothing is changed. Reading a range, as floats or as doubles, gives this range of what reading everything gives. Labels given with the values replace those of the curves named.", "quantifier": "all data in the file, ranges, values, histories before (with other partial stores among them) and after, and pathnames", "why_tests_cant": "all ranges times contents times histories", "anchors": ["heclib/heclib_c/src/Public/zpdStore.c:zpdStore", "heclib/heclib_c/src/Public/zpdRetrieve.c:zpdRetrieve"]}
{"id": "C56", "title": "The location of a place reads back as it was stored", "statement": "A location stored for the parts A and B of a pathname is read back, coordinates, coordinate system, units, datums, time zone and other text, by every pathname with the same parts A and B in any letter case, whatever is called next about other records; no other record changes. With flag 0 a location that is there stays. Deleting a location deletes it and nothing else.", "quantifier": "all locations, pathnames, flags, histories before and after", "why_tests_cant": "all contents times histories", "anchors": ["heclib/heclib_c/src/Public/zlocationStore.c:zlocationStore", "heclib/heclib_c/src/Public/zlocationRetrieve.c:zlocationRetrieve", "heclib/heclib_c/src/Public/zlocationDelete.c:zlocationDelete", "heclib/heclib_c/src/Public/zlocationPath.c:zlocationPath", "heclib/heclib_c/src/SemiPublic/zlocationStructValid.c:zlocationStructValid"]}
{"id": "C57", "title": "Text and arrays read into the caller's memory by the public interface", "statement": "A text stored with hec_dss_textStore is read by hec_dss_textRetrieve into the buffer of the caller, as much of it as there is room for, with a status that says whether it was all; arrays stored with hec_dss_arrayStore are read by hec_dss_arrayRetrieve into memory of the lengths hec_dss_arrayRetrieveInfo tells; whatever is called in between about other records. Nothing is written behind the lengths given, whatever is in the file.", "quantifier": "all texts, arrays, buffers, lengths, histories before and after, and pathnames", "why_tests_cant": "all contents times buffers times histories", "anchors": ["heclib/hecdss/hecdss.c:hec_dss_textStore", "heclib/hecdss/hecdss.c:hec_dss_textRetrieve", "heclib/hecdss/hecdss.c:hec_dss_arrayStore", "heclib/hecdss/hecdss.c:hec_dss_arrayRetrieveInfo", "heclib/hecdss/hecdss.c:hec_dss_arrayRetrieve", "heclib/heclib_c/src/Utilities/mallocAndCopy.c:mallocAndCopy"]}
{"id": "C58", "title": "Paired data read into the caller's memory by the public interface", "statement": "Paired data stored with hec_dss_pdStore are read by hec_dss_pdRetrieve into memory of the sizes hec_dss_pdRetrieveInfo tells: all numbers, and of labels, units, types and time zone as much as there is room for, whatever is called in between about other records. With other sizes this is reported and nothing is written. Nothing is written behind the lengths given, whatever is in the file.", "quantifier": "all data, strings, buffers, lengths, histories before and after, and pathnames", "why_tests_cant": "all contents times buffers times histories", "anchors": ["heclib/hecdss/hecdss.c:hec_dss_pdStore", "heclib/hecdss/hecdss.c:hec_dss_pdRetrieveInfo", "heclib/hecdss/hecdss.c:hec_dss_pdRetrieve", "heclib/heclib_c/src/Public/zstructPdNewDoubles.c:zstructPdNewDoubles"]}
{"id": "C59", "title": "Locations read into the caller's memory by the public interface", "statement": "A location stored with hec_dss_locationStore is read by hec_dss_locationRetrieve: coordinates, coordinate system, units, datums, and of the two strings as much as there is room for, through every pathname with the same parts A and B, whatever is called in between about other records.", "quantifier": "all locations, buffers, lengths, histories before and after, and pathnames", "why_tests_cant": "all contents times buffers times histories", "anchors": ["heclib/hecdss/hecdss.c:hec_dss_locationStore", "heclib/hecdss/hecdss.c:hec_dss_locationRetrieve"]}
{"id": "C60", "title": "The catalog of the public interface fits the record count and the caller's memory", "statement": "With memory for as many pathnames as hec_dss_record_count says, hec_dss_catalog returns every pathname that can be read, each once, in its slot with a zero byte behind it, with its type; with a filter those that match; with less room the first of them. Nothing is written behind the slots.", "quantifier": "all histories, filters, counts and buffers", "why_tests_cant": "all histories times buffers", "anchors": ["heclib/hecdss/hecdss.c:hec_dss_catalog", "heclib/hecdss/hecdss.c:hec_dss_record_count", "heclib/heclib_c/src/Utilities/stringCopy.c:stringCopy"]}
{"id": "C61", "title": "A grid reads back as it was stored", "statement": "A grid stored with zspatialGridStore, without compression, with zlib or compressed by the caller, is read back by zspatialGridRetrieve by the same name in any letter case, whatever is called next about other records: type, sizes, strings, cell size and origin, null value, statistics, table of ranges, and, if asked for, every cell. No other record changes. Nothing is stored if the compression or the type of cells is not known or zlib fails; a record that is not a grid is not read as one.", "quantifier": "all grids (numbers, strings, ranges, cells), ways of compression, histories before and after, and pathnames", "why_tests_cant": "all contents times histories", "anchors": ["heclib/heclib_c/src/Public/zspatialGridStore.c:zspatialGridStore_extended", "heclib/heclib_c/src/Public/zspatialGridRetrieve.c:zspatialGridRetrieve", "heclib/heclib_c/src/Public/zlibcompress.c:compress_zlib", "heclib/heclib_c/src/headers/zStructSpatialGrid.h"]}
{"id": "C62", "title": "Grids read into the caller's memory by the public interface", "statement": "A grid stored with hec_dss_gridStore is read by hec_dss_gridRetrieve into the variables and the memory of the caller: all numbers, and of each string, of the ranges and of the cells as much as there is room for, whatever is called in between about other records. Nothing is written behind the lengths given, whatever is in the file.", "quantifier": "all grids, buffers, lengths, histories before and after, and pathnames", "why_tests_cant": "all contents times buffers times histories", "anchors": ["heclib/hecdss/hecdss.c:hec_dss_gridStore", "heclib/hecdss/hecdss.c:hec_dss_gridRetrieve"]}
{"id": "C63", "title": "Regular time series in a file among other records", "statement": "Stores of a regular series, among any other calls on the file, succeed and change no record that is not a block of the series; whatever the order, overlaps, block boundaries, storage flags and D parts used, retrieving any window gives for every standard time the value the stores leave there (or missing), and the units, type, precision and offset stored.", "quantifier": "all intervals (not weekly), start times, values, flags, numbers of stores, histories of the file before, between and after, and windows", "why_tests_cant": "all histories times windows times contents of the file", "anchors": ["heclib/heclib_c/src/Internal/ztsStoreReg7.c:ztsStoreReg7", "heclib/heclib_c/src/Internal/ztsRetrieveReg7.c:ztsRetrieveReg7", "heclib/heclib_c/src/Internal/ztsRegStoreBlock.c:ztsRegStoreBlock", "heclib/heclib_c/src/Internal/ztsWriteBlock.c:ztsWriteBlock", "heclib/heclib_c/src/Internal/ztsRegReadBlock.c:ztsRegReadBlock"]}
{"id": "C64", "title": "Irregular time series in a file among other records", "statement": "Stores of an irregular series, among any other calls on the file, succeed and change no record that is not a block of the series; whatever the order, overlaps and block boundaries, retrieving any window gives in order of time exactly the values and quality flags the stores leave there, with their times, and the units, type and precision stored.", "quantifier": "all five block sizes, base dates, times, values, numbers of stores, histories of the file before, between and after, and windows", "why_tests_cant": "all histories times windows times contents of the file", "anchors": ["heclib/heclib_c/src/Internal/ztsStoreIrreg7.c:ztsStoreIrreg7", "heclib/heclib_c/src/Internal/ztsRetrieveIrreg7.c:ztsRetrieveIrreg7", "heclib/heclib_c/src/Internal/ztsIrregStoreBlock.c:ztsIrregStoreBlock", "heclib/heclib_c/src/Internal/ztsWriteBlock.c:ztsWriteBlock", "heclib/heclib_c/src/Internal/ztsIrregReadBlock.c:ztsIrregReadBlock", "heclib/heclib_c/src/Internal/ztsGetSizesInternal.c:ztsGetSizesInternal"]}
{"id": "C65", "title": "F parts with tags have one normal form", "statement": "Normalizing an F part with tags succeeds for exactly the well formed ones (known letters, each once, values of the documented form, at most one text) and puts the tags in the order C, N, T, R, V before the text; nothing is lost, the order of the pieces and the case of the letters do not matter, a normal form stays as it is, and in a pathname the other parts are kept.", "quantifier": "all F parts and pathnames", "why_tests_cant": "all strings, orders of tags and values", "anchors": ["heclib/heclib_c/src/Utilities/normalizeFPart.c:normalizeFPart", "heclib/heclib_c/src/Utilities/normalizeFPart.c:normalizeFPartInPathname", "heclib/heclib_c/src/Utilities/normalizeFPart.c:validateFPartTag"]}
{"id": "C66", "title": "Regular time series through the public interface", "statement": "Values stored with hec_dss_tsStoreRegular are read by hec_dss_tsRetrieve, whatever the spelling of the E part, the D part given, the texts of the dates, and other calls on the file in between: one value for every standard time of the window, up to the room the caller has, each with its time (base date and granularity given), units, type and time zone; nothing is written behind them, and the times are ints. A pathname without an interval is refused and the file not touched.", "quantifier": "all series, stores, windows, histories, spellings of pathnames and texts of times, buffers and sizes", "why_tests_cant": "all histories times windows times texts times buffers", "anchors": ["heclib/hecdss/hecdss.c:hec_dss_tsStoreRegular", "heclib/hecdss/hecdss.c:hec_dss_tsRetrieve", "heclib/heclib_c/src/Internal/ztsProcessTimes.c:ztsProcessTimes", "heclib/heclib_c/src/Internal/ztsRegAddTimes.c:ztsRegAddTimes", "heclib/heclib_c/src/Public/ztsStore.c:ztsStore", "heclib/heclib_c/src/Public/ztsRetrieve.c:ztsRetrieve"]}
{"id": "C67", "title": "Irregular time series through the public interface", "statement": "Values stored with hec_dss_tsStoreIregular, with times counted from a base date in seconds, minutes, hours or days, are read by hec_dss_tsRetrieve, whatever the spelling of the E part, the D part given, the texts of the dates, and other calls on the file in between: exactly the values the stores leave in the window, in order of time, up to the room the caller has, each with its time (base date and granularity given) and quality flag, units, type and time zone; nothing is written behind them, and the times are ints. Times that are not in order are refused and the file is not touched.", "quantifier": "all series, block sizes, stores, windows, histories, spellings of pathnames and texts of times, buffers and sizes", "why_tests_cant": "all histories times windows times texts times buffers", "anchors": ["heclib/hecdss/hecdss.c:hec_dss_tsStoreIregular", "heclib/hecdss/hecdss.c:hec_dss_tsRetrieve", "heclib/heclib_c/src/Internal/ztsProcessTimes.c:ztsProcessTimes", "heclib/heclib_c/src/Public/zstructTsNewIrregDoubles.c:zstructTsNewIrregDoubles", "heclib/heclib_c/src/Internal/ztsStoreIrreg7.c:ztsStoreIrreg7", "heclib/heclib_c/src/Internal/ztsRetrieveIrreg7.c:ztsRetrieveIrreg7"]}
{"id": "C68", "title": "Pathnames with an old minute interval", "statement": "A call looks up exactly the pathname it is given, unless the E part has the version 6 form of a minute interval (one or two characters and MIN, such as 15MIN). Such a name is a second name of the pathname with Minute for MIN: reading, deleting and writing through it act on the record under the new name, and a record stored under it can be read back.", "quantifier": "all pathnames, files and histories of calls", "why_tests_cant": "all pathnames times all histories", "anchors": ["heclib/heclib_c/src/DssInterface/v6and7/zcheck.c:zcheck", "heclib/heclib_c/src/Internal/ztsPathCompatible.c:ztsPathCompatible", "heclib/heclib_c/src/Internal/zreadInfo.c:zreadInfo", "heclib/heclib_c/src/Internal/zwriteNew.c:zwriteNew", "heclib/heclib_c/src/Internal/zbinUpdate.c:zbinUpdate"]}
{"id": "C69", "title": "Date and time range of a block of a series", "statement": "After any history of stores of a regular time series and other calls on the file, asking for the date and time range of the pathname of one of its blocks gives the times of the first and the last value of the block that is not missing, and fails if and only if all values of the block are missing.", "quantifier": "all files and histories of calls, series, intervals, stores, blocks", "why_tests_cant": "all histories times all series", "anchors": ["heclib/hecdss/hecdss.c:hec_dss_tsGetDateTimeRange", "heclib/heclib_c/src/Public/ztsGetDateTimeRange.c:ztsGetDateTimeRange", "heclib/heclib_c/src/SemiPublic/ztsGetFirstLastRecordTimes.c:ztsGetFirstLastRecordTimes", "heclib/heclib_c/src/Internal/ztsRegStoreBlock.c:ztsRegStoreBlock"]}
{"id": "C70", "title": "Type of a record", "statement": "After any history of writes, deletes, undeletes and renames, hec_dss_recordType of a pathname gives the type of the record as it was written last, and -1 if there is none; hec_dss_dataType gives the same type for a record, and otherwise a guess from the E part: 100 for regular, 110 for irregular intervals, 0 for anything else. Blocks of series of floats and doubles have types 100 and 105 (regular), 110 and 115 (irregular).", "quantifier": "all pathnames, files and histories of calls", "why_tests_cant": "all pathnames times all histories", "anchors": ["heclib/hecdss/hecdss.c:hec_dss_recordType", "heclib/hecdss/hecdss.c:hec_dss_dataType", "heclib/heclib_c/src/DssInterface/v6and7/zdataType.c:zdataType", "heclib/heclib_c/src/Internal/zgetRecordBasics7.c:zgetRecordBasics7", "heclib/heclib_c/src/Public/ztsGetInterval.c:ztsGetInterval"]}
{"id": "C71", "title": "Squeeze", "statement": "hec_dss_squeeze of a file made by any history succeeds; afterwards the file has the same records as before (data, headers, versions, times), no deleted ones, can be used like any other file, the temporary file is gone and no other file has changed. Wherever a squeeze is cut off, all records are in the file itself or in the temporary file.", "quantifier": "all files made by the library, names, directories, and all points where a squeeze is cut off", "why_tests_cant": "all histories times all crash points; a crash between two writes cannot be enumerated by tests", "anchors": ["heclib/hecdss/hecdss.c:hec_dss_squeeze", "heclib/heclib_c/src/DssInterface/v6and7/zsqueeze.c:zsqueeze", "heclib/heclib_c/src/Public/zsqueeze7.c:zsqueeze7", "heclib/heclib_c/src/Internal/copyFile.c:copyFile", "heclib/heclib_c/src/Utilities/getFileFromPath.c:getFileFromPath"]}
{"id": "C72", "title": "Closing and opening again", "statement": "A history of calls may be cut into sessions at any place (the file is closed and opened again, by the same or another program): all calls return and read what they would if the file had stayed open.", "quantifier": "all histories and all ways to cut them into sessions", "why_tests_cant": "unboundedly many histories and cuts", "anchors": ["heclib/heclib_c/src/Internal/zopenInternal.c:zopenInternal", "heclib/heclib_c/src/Internal/zpermRead.c:zpermRead", "heclib/heclib_c/src/Internal/zwriteInternal.c:zwriteInternal", "heclib/heclib_c/src/Internal/zcloseInternal.c:zcloseInternal"]}
{"id": "C73", "title": "The check of a file finds nothing", "statement": "After any history of calls on a file made by the library, the check of the file (zcheckFile) reports no errors: all links of records, all pathnames, all bins and the whole hash table are right.", "quantifier": "all histories of writes, deletes, undeletes and renames on a new file", "why_tests_cant": "unboundedly many histories; a wrong link may appear only after some sequence of overwrites and deletions", "anchors": ["heclib/heclib_c/src/Public/zcheckFile.c:zcheckFile", "heclib/heclib_c/src/SemiPublic/zcheckLinks.c:zcheckLinks", "heclib/heclib_c/src/SemiPublic/zcheckPathnames.c:zcheckPathnames", "heclib/heclib_c/src/SemiPublic/zcheckPathnameBins.c:zcheckPathnameBins", "heclib/heclib_c/src/SemiPublic/zcheckHashTable.c:zcheckHashTable", "heclib/heclib_c/src/SemiPublic/zcheckInfo.c:zcheckInfo", "heclib/heclib_c/src/Internal/zreadInfoBlock.c:zreadInfoBlock"]}
{"id": "C74", "title": "Sizes of a series in a window", "statement": "After any history of stores of a series and other calls, hec_dss_tsGetSizes for a window gives the number of values that hec_dss_tsRetrieve of the same pathname and window gives, and the size of the quality flags: buffers allocated with it hold the data.", "quantifier": "all files and histories of calls, series, intervals, windows", "why_tests_cant": "all histories times all windows; the caller sizes buffers with the answer", "anchors": ["heclib/hecdss/hecdss.c:hec_dss_tsGetSizes", "heclib/heclib_c/src/DssInterface/v6and7/ztsGetSizes.c:ztsGetSizes", "heclib/heclib_c/src/Internal/ztsGetSizesInternal.c:ztsGetSizesInternal"]}
{"id": "C75", "title": "Units and type of a series", "statement": "After any history of stores of a series and other calls, hec_dss_tsRetrieveInfo gives the units and the type with which the series was stored (cut at the sizes of the buffers, and nothing behind them is written), and an error for a pathname of no series.", "quantifier": "all files and histories of calls, series, pathnames, buffer sizes", "why_tests_cant": "all histories times all buffer sizes", "anchors": ["heclib/hecdss/hecdss.c:hec_dss_tsRetrieveInfo", "heclib/heclib_c/src/Internal/ztsInternalHeaderUnpack.c:ztsInternalHeaderUnpack"]}
{"id": "C76", "title": "The check sum of a record", "statement": "zgetDataCRC of a pathname gives the CRC-32 of the data of the record (user header and values), continued from the number given: equal data have equal check sums, data that differ in one value have different ones, and a missing record has none; this is what the comparison by check sums (zwhatChanged) relies on.", "quantifier": "all files and histories, records, pathnames and start numbers", "why_tests_cant": "infinitely many pairs of records; a collision of near records would only show for some contents", "anchors": ["heclib/heclib_c/src/Public/zgetDataCRC.c:zgetDataCRC", "heclib/heclib_c/src/Public/zgetDataCRC.c:crc32_filltable", "heclib/heclib_c/src/Public/zgetDataCRC.c:crc32_block_endian0", "heclib/heclib_c/src/Internal/zreadInternal.c:zreadInternal"]}
{"id": "C77", "title": "What has changed since a start", "statement": "zwhatChanged lists the records that match the pattern and have been written since zwhatChangedSetStart, new ones included, each once, and no others; with check sums, of these the ones whose data differ from those at the start. The time of the last write in a row of the catalog is that of the record.", "quantifier": "all files, histories before and after the start, patterns, both ways of comparison", "why_tests_cant": "two histories and a clock; a missed record shows only in some order of writes, deletes and renames", "anchors": ["heclib/heclib_c/src/Public/zwhatChangedSetStart.c:zwhatChangedSetStart", "heclib/heclib_c/src/Public/zwhatChangedCompare.c:zwhatChangedCompare", "heclib/heclib_c/src/Public/zwhatChanged.c:zwhatChanged", "heclib/heclib_c/src/Internal/zcatalogInternal.c:zcatalogInternal"]}
{"id": "C78", "title": "Undeleting everything", "statement": "zundeleteAll undoes the deletions: every deleted record can be read again as it was when it was deleted, all other records are as before, and the number returned is the number of records that came back.", "quantifier": "all files and histories of writes, deletes, undeletes and renames, all sets of deleted records", "why_tests_cant": "the deleted records depend on the whole history: which were written again, deleted twice, or had their place taken", "anchors": ["heclib/heclib_c/src/Public/zundeleteAll.c:zundeleteAll", "heclib/heclib_c/src/Internal/zdeleteInternal.c:zdeleteInternal", "heclib/heclib_c/src/Internal/zcatalogInternal.c:zcatalogInternal"]}
{"id": "C79", "title": "Sequence numbers of collections", "statement": "zsetCollectionSequence returns the given pathname with the F part C:nnnnnn| in front of what stood there, an old sequence number replaced: setting a number twice is setting the last one, different numbers give different pathnames, and no byte outside the new pathname is written.", "quantifier": "all pathnames of six parts, all F parts with and without a sequence number, all integers", "why_tests_cant": "the range of an integer times all strings; the overrun by one byte does not show in tests", "anchors": ["heclib/heclib_c/src/Public/zsetCollectionSequence.c:zsetCollectionSequence", "heclib/heclib_c/src/Public/zpathnameSetPart.c:zpathnameSetPart"]}
{"id": "C80", "title": "Catalog of a collection", "statement": "zcollectionCat with a member of a collection as seed lists the members of that collection in the file, whatever their sequence numbers, and no other records.", "quantifier": "all files and histories as in C48, all seeds, all pathnames", "why_tests_cant": "the pathnames in a file and the seed are arbitrary; only some lengths of sequences fail", "anchors": ["heclib/heclib_c/src/Public/zcollectionCat.c:zcollectionCat", "heclib/heclib_c/src/Internal/zcatComparePath.c:zcatComparePath", "heclib/heclib_c/src/Internal/zcatParsePath.c:zcatParsePath", "heclib/heclib_c/src/Internal/zcatalogInternal.c:zcatalogInternal"]}
{"id": "C81", "title": "Comparison of members of collections", "statement": "zpathnameCompareCollection tells whether two pathnames are members of one collection: it says yes if and only if both have a sequence number and agree up to case in all else.", "quantifier": "all pairs of pathnames", "why_tests_cant": "pairs of arbitrary strings", "anchors": ["heclib/heclib_c/src/Public/zpathnameCompareCollection.c:zpathnameCompareCollection"]}
{"id": "C82", "title": "Binary files as records", "statement": "A file stored with zbinaryStoreFromFile and written out with zbinaryRetrieveToFile comes back byte for byte; a call that fails says so and leaves the DSS file and all other files as they were.", "quantifier": "all contents of files, file names, pathnames and DSS files", "why_tests_cant": "contents of files are arbitrary bytes of any length", "anchors": ["heclib/heclib_c/src/Public/zbinaryStoreFromFile.c:zbinaryStoreFromFile", "heclib/heclib_c/src/Public/zbinaryRetrieveToFile.c:zbinaryRetrieveToFile", "heclib/heclib_c/src/System/zfileSize.c:zfileSize", "heclib/heclib_c/src/System/zopendisk.c:zopenDisk"]}
{"id": "C83", "title": "Text files as records", "statement": "A text file stored with ztextStoreFromFile and written out with ztextRetrieveToFile comes back byte for byte, whatever its lines are, after any other calls; no other record and no other file changes; a record that is not there or is no text changes no file.", "quantifier": "all contents of files, all pathnames, all histories of the DSS file before and after as in C27", "why_tests_cant": "contents are arbitrary, with lines of any length; histories are arbitrary", "anchors": ["heclib/heclib_c/src/Public/ztextStoreFromFile.c:ztextStoreFromFile", "heclib/heclib_c/src/Public/ztextRetrieveToFile.c:ztextRetrieveToFile"]}
{"id": "C84", "title": "Names of DSS files", "statement": "A file name means the same file with and without the extension .dss, and with and without quotes around it; the name that results, used again, means that file.", "quantifier": "all file names and everything that is on the computer", "why_tests_cant": "names are arbitrary strings", "anchors": ["heclib/heclib_c/src/System/zfileName.c:zfileName"]}
{"id": "C85", "title": "Opening never harms a file", "statement": "hec_dss_open opens a file if and only if it is a DSS file of version 7, and agrees with hec_dss_getFileVersion about that; it makes a new file only where there is none or an empty one, which can then be opened; it changes no file that has something in it, and none at all with read access.", "quantifier": "all contents of all files, names, permissions and kinds of access", "why_tests_cant": "contents of files are arbitrary bytes", "anchors": ["heclib/heclib_c/src/Internal/zopenInternal.c:zopenInternal", "heclib/heclib_c/src/Internal/zpermRead.c:zpermRead", "heclib/heclib_c/src/Public/zgetFileVersion.c:zgetFileVersion", "heclib/heclib_c/src/System/zopendisk.c:zopenDisk", "heclib/heclib_c/src/System/zfileName.c:zfileName"]}
{"id": "C86", "title": "A sorted catalog has the same records", "statement": "A sorted catalog gives out exactly the records an unsorted catalog of the same request gives out, each one once, and returns their number; also when the order is taken from the list of addresses stored in the file by an earlier sorted catalog, whatever was written, overwritten, deleted, undeleted or renamed since.", "quantifier": "all histories of calls with sorted catalogs in between, all requests and pathnames", "why_tests_cant": "the stored list becomes stale or not depending on the history of the file", "anchors": ["heclib/heclib_c/src/Internal/zcatInternalSort.c:zcatInternalSort", "heclib/heclib_c/src/Internal/zcatSortPath.c:zcatSortPath", "heclib/heclib_c/src/Internal/zsetCatalogSortAddresses.c:zsetCatalogSortAddresses", "heclib/heclib_c/src/Internal/zgetCatalogSortAddresses.c:zgetCatalogSortAddresses", "heclib/heclib_c/src/Utilities/getLastInt.c:getLastInt"]}
{"id": "C87", "title": "The order of a sorted catalog", "statement": "The pathnames of a sorted catalog are in the order of their A, B and C parts; blocks of time series with the same A, B and C parts are in the order of F part, interval and date.", "quantifier": "all sets of pathnames and record types, all histories", "why_tests_cant": "the order must hold for every pair of records of every file", "anchors": ["heclib/heclib_c/src/Internal/zcatSortPath.c:zcatSortPath", "heclib/heclib_c/src/Internal/zcatalogInternal.c:zcatalogInternal", "heclib/heclib_c/src/Utilities/toFixedFields.c:toFixedFields", "heclib/heclib_c/src/Utilities/sortfiles.c:compare"]}
{"id": "C88", "title": "Duplicating a record", "statement": "zduplicateRecord leaves under the new pathname a record with the headers, values, dates, version and time of last write of the original; the original, if it has another pathname, and all other records stay as they are; a record of another type under the new pathname is kept, and a call for a record that is not there changes nothing. The file goes on to behave like any other.", "quantifier": "all files in use, with any calls, duplicates and copies before, all records and pathnames", "why_tests_cant": "any history of the file, any record", "anchors": ["heclib/heclib_c/src/Public/zduplicateRecord.c:zduplicateRecord", "heclib/heclib_c/src/Internal/zcopyRecordInternal.c:zcopyRecordInternal", "heclib/heclib_c/src/Utilities/verticalDatum.c:pathnameIsElevTsOrPd"]}
{"id": "C89", "title": "Copying a record to another file", "statement": "zcopyRecord leaves in the other file, under the new pathname, a record that reads like the original: headers, values, dates, version and time of last write; no other record of either file changes. Values of a time series are never stored under another date or interval than their own.", "quantifier": "all pairs of files in use, all records and pathnames", "why_tests_cant": "any histories of both files, any record, any pair of pathnames", "anchors": ["heclib/heclib_c/src/DssInterface/v6and7/zcopyRecord.c:zcopyRecord", "heclib/heclib_c/src/Internal/zcopyRecordInternal.c:zcopyRecordInternal", "heclib/heclib_c/src/DssInterface/v6and7/zdataType.c:zdataType"]}
{"id": "C90", "title": "Date and time texts of an instant", "statement": "The date and the time texts shown for an instant (a position in a time series, a number of minutes since 1900, a number of milliseconds since 1970) name exactly this instant when they are read back; a combined text of date and time gives back the day and the time it was written from, and a text that is not one is refused.", "quantifier": "all instants of the years 5 to 9999, all units of time, all date and time styles", "why_tests_cant": "any instant, base date, unit of time and style", "anchors": ["heclib/heclib_c/src/Utilities/DateTime/getDateAndTime.c:getDateAndTime", "heclib/heclib_c/src/Utilities/DateTime/minsToDateTime.c:minsToDateTime", "heclib/heclib_c/src/Utilities/DateTime/millsToDateTime.c:millsToDateTime", "heclib/heclib_c/src/Utilities/DateTime/minutesToHourMin.c:minutesToHourMin", "heclib/heclib_c/src/Utilities/DateTime/getDateTimeString.c:getDateTimeString", "heclib/heclib_c/src/Utilities/DateTime/spatialDateTime.c:spatialDateTime"]}
{"id": "C91", "title": "What is told about a record is what is read", "statement": "For every record of a file, the sizes, the type, the version, the dates and the time of the last write that zgetRecordSize, zgetRecordBasics and zgetLastWriteTimeRec report are those of the record that reading its pathname returns; for a pathname without a record they say that there is none.", "quantifier": "all files in use, all pathnames, whatever was looked up before", "why_tests_cant": "any history of calls, any pathname, any earlier query", "anchors": ["heclib/heclib_c/src/Internal/zgetRecordSize7.c:zgetRecordSize7", "heclib/heclib_c/src/Internal/zgetRecordBasics7.c:zgetRecordBasics7", "heclib/heclib_c/src/Public/zgetLastWriteTimeRec.c:zgetLastWriteTimeRec"]}
{"id": "C92", "title": "An error stays an error on its way to the caller", "statement": "When a function fails and the functions above it pass its status on, each adding its own identity, the caller still gets an error, of the same severity and kind, from which the function where it happened, the function which called it, the number of the error and the status of the system can be read.", "quantifier": "all error codes, all chains of calling functions", "why_tests_cant": "any severity, fields and any list of callers", "anchors": ["heclib/heclib_c/src/Internal/zerrorUpdate.c:zerrorUpdate", "heclib/heclib_c/src/Internal/zerrorEncodeHigh.c:zerrorEncodeHigh", "heclib/heclib_c/src/SemiPublic/zerrorSpecifics.c:zerrorSpecifics", "heclib/heclib_c/src/SemiPublic/zisError.c:zisError"]}
{"id": "C93", "title": "Triangulated surfaces round trip", "statement": "A triangulated surface stored with zspatialTinStore is read back by zspatialTinRetrieve as it was stored: numbers, strings, points, values, connections and labels, by the same pathname in any letter case, whatever is done to other records in between; without data only the numbers and strings. Other records do not change, and a record of another type is neither read nor replaced.", "quantifier": "all files, all surfaces of any size, all later calls", "why_tests_cant": "any history, any surface, any spelling of the pathname", "anchors": ["heclib/heclib_c/src/Public/zspatialTinStore.c:zspatialTinStore", "heclib/heclib_c/src/Public/zspatialTinRetrieve.c:zspatialTinRetrieve", "heclib/heclib_c/src/DssInterface/v6and7/zwrite.c:zwrite"]}
{"id": "C94", "title": "Date and time range of a whole series", "statement": "Asking for the date and time range of a series over all its records (boolFullSet) finds the first and the last of its records, whatever D part the pathname has, and gives the times of the first and the last value of the whole series that is not missing; it fails if and only if there is no such value. Records of other series and kinds do not matter.", "quantifier": "all files and histories of calls, regular series, intervals, stores, D parts of the pathname asked for", "why_tests_cant": "all histories times all series and all other records in the file", "anchors": ["heclib/hecdss/hecdss.c:hec_dss_tsGetDateTimeRange", "heclib/heclib_c/src/Public/ztsGetDateTimeRange.c:ztsGetDateTimeRange", "heclib/heclib_c/src/SemiPublic/ztsGetFirstLastPathnames.c:ztsGetFirstLastPathnames", "heclib/heclib_c/src/SemiPublic/ztsGetPathTimeWindow.c:ztsGetPathTimeWindow"]}
{"id": "C95", "title": "Time patterns are kept", "statement": "A time pattern (D part TS-Pattern) stored through the public interface, regular or irregular, is read back through it with all its values, times, units, type, precision and time zone, until it is overwritten or deleted, whatever letter case or spelling of the interval the pathname has; no other record changes. The date and time range of a pattern is that of its values.", "quantifier": "all files and histories of calls, patterns, values, intervals, texts, sizes of buffers", "why_tests_cant": "all histories times all patterns and all later calls", "anchors": ["heclib/hecdss/hecdss.c:hec_dss_tsStoreRegular,hec_dss_tsStoreIregular,hec_dss_tsRetrieve,hec_dss_tsGetDateTimeRange", "heclib/heclib_c/src/SemiPublic/ztsStorePattern.c:ztsStorePattern", "heclib/heclib_c/src/Public/ztsRetrievePattern.c:ztsRetrievePattern", "heclib/heclib_c/src/Internal/isTsPattern.c:isTsPattern"]}
{"id": "C96", "title": "Settings hold until they are changed", "statement": "A setting made with hec_dss_set_value or hec_dss_set_string holds until the same setting is made again: asked for under its name, in any letter case, it is found as it was set, whatever other settings are made in between, and before it is first set it is what the library starts with. Names that are not known are refused and change nothing.", "quantifier": "all sequences of settings, names, texts and numbers, sizes of the memory for the text", "why_tests_cant": "all sequences of calls", "anchors": ["heclib/hecdss/hecdss.c:hec_dss_set_value,hec_dss_set_string", "heclib/heclib_c/src/Public/zset.c:zset", "heclib/heclib_c/src/Public/zquery.c:zquery"]}
{"id": "C97", "title": "Levels of messages", "statement": "A message is written if and only if its level is not above the level set for its group of functions: set with the name of the group, or for all groups, and in force until it is set again; groups that are not named keep their level, and so does a squeeze.", "quantifier": "all sequences of settings, groups, levels", "why_tests_cant": "all sequences of calls times all groups and levels", "anchors": ["heclib/heclib_c/src/Public/zset.c:zset", "heclib/heclib_c/src/Internal/zsetMessageLevel.c:zsetMessageLevel,zsetMessageGroupLevel", "heclib/heclib_c/src/Internal/zmessageLevel.c:zmessageLevel", "heclib/heclib_c/src/Public/zsqueeze7.c:zsqueeze7"]}
{"id": "C98", "title": "Bytes in base 64 come back", "statement": "b64Encode gives the text in base 64 of any bytes, with as many characters as it needs and a zero after them; different bytes have different texts; and b64Decode of the text gives the bytes again, and their number.", "quantifier": "all bytes, of any number", "why_tests_cant": "all inputs", "anchors": ["heclib/heclib_c/src/Utilities/verticalDatum.c:b64EncodedLen,b64DecodedLen,b64Encode,b64Decode"]}
{"id": "C99", "title": "Values in a text of entries", "statement": "A value put into a text of entries (as in the user header or the supplemental text of a location) under a name is found under that name until it is replaced or removed, whatever is put in or removed under other names; a value that is there is only replaced when that is asked for; and when there is no room the text stays as it was.", "quantifier": "all sequences of putting in and removing, names, values, separators, delimiters, sizes of the memory", "why_tests_cant": "all sequences of calls", "anchors": ["heclib/heclib_c/src/Utilities/verticalDatum.c:extractFromDelimitedString,insertIntoDelimitedString", "heclib/heclib_c/src/Public/ztsStore.c:ztsStore"]}
{"id": "C100", "title": "The lengths of the longest parts", "statement": "The lengths of the longest A, B, C, D, E and F part that zmaxPart and zinquire ('maxa' to 'maxf') give for a file are enough for the pathname of every record that can be read, and each is the length of a part of some pathname the file was told of; so the columns that a sorted catalog is sorted by, which have these widths, are wide enough.", "quantifier": "all files in use: all histories of writes, deletes, undeletes, renames and sorted catalogs", "why_tests_cant": "all histories", "anchors": ["heclib/heclib_c/src/Internal/zupdatePathStats.c:zupdatePathStats", "heclib/heclib_c/src/SemiPublic/zmaxPart.c:zmaxPart7", "heclib/heclib_c/src/Public/zinquire.c:zinquire", "heclib/heclib_c/src/Internal/zcatalogInternal.c:zcatalogInternal"]}
{"id": "C101", "title": "The time of the last write to a file", "statement": "If the clock is never set back, the time that zgetLastWriteTimeFile gives is the time of a call made on the file (or of its creation), no record that can be read was written later, and directly after a write it is the time of the record written; a program that remembers it notices every change made at a later time: as long as the time is the same, every record is as it was. The time that zgetMyLastWriteTime gives is not before any write of this process.", "quantifier": "all files in use: all histories of writes, deletes, undeletes and renames, with any times that the clock shows", "why_tests_cant": "all histories and all times of the calls", "anchors": ["heclib/heclib_c/src/Public/zgetLastWriteTimeFile.c:zgetLastWriteTimeFile", "heclib/heclib_c/src/Public/zgetMyLastWriteTime.c:zgetMyLastWriteTime", "heclib/heclib_c/src/Internal/zwriteNew.c:zwriteNew", "heclib/heclib_c/src/Internal/zwriteExisting.c:zwriteExisting", "heclib/heclib_c/src/Internal/zdeleteInternal.c:zdeleteInternal", "heclib/heclib_c/src/Public/zrename.c:zrename", "heclib/heclib_c/src/Internal/zcheckAccessReset.c:zcheckAccessReset"]}
{"id": "C102", "title": "Comparing two records", "statement": "zcompareDataSets, for two transfer structs, says that they are equal exactly when the records have the same type, headers, values and numbers of values (and, for an exact comparison, the same pathname up to letter case, version and time of the last write); it never reads outside the arrays. What was written to a file and read again compares equal to what was written, and to nothing else.", "quantifier": "all pairs of structs that hold the contents of a record; all histories of a file before the write", "why_tests_cant": "all contents, lengths and histories", "anchors": ["heclib/heclib_c/src/SemiPublic/zcompareDataSets.c:zcompareDataSets", "heclib/heclib_c/src/SemiPublic/zcompareDataSets.c:zcompare_ztransferStruct", "heclib/heclib_c/src/SemiPublic/zcompareDataSets.c:zcompareStrings", "heclib/heclib_c/src/SemiPublic/zcompareDataSets.c:zcompareIntArrays", "heclib/heclib_c/src/Internal/zreadInternal.c:zreadInternal"]}
{"id": "C103", "title": "The time window of a pathname, and the current record", "statement": "ztsGetPathTimeWindow gives for the pathname of a record the window from the day of the D part to the end of the last day of the block, and leaves the pathname as it is but for letter case; of the pathname of a block, ztsIsCurrentTimeSeries says whether the current day is in that block.", "quantifier": "all pathnames with the name of an interval and a date from the year 100 to 9999, all days of the clock", "why_tests_cant": "all pathnames, intervals, dates and times of the clock", "anchors": ["heclib/heclib_c/src/SemiPublic/ztsGetPathTimeWindow.c:ztsGetPathTimeWindow", "heclib/heclib_c/src/SemiPublic/ztsIsCurrentTimeSeries.c:ztsIsCurrentTimeSeries", "heclib/heclib_c/src/System/getCurrentDateTime.c:getCurrentDateTime", "heclib/heclib_c/src/Public/zpathnameSetPart.c:zpathnameSetPart"]}
{"id": "C104", "title": "A number with commas", "statement": "longWithCommas writes the decimal digits of the number with a comma before every third digit from the right, and a sign, and returns the length; if the array is too short it returns -1 and writes nothing outside of it.", "quantifier": "all numbers but the smallest, all lengths of the array", "why_tests_cant": "all numbers and lengths", "anchors": ["heclib/heclib_c/src/Utilities/longWithCommas.c:longWithCommas"]}
{"id": "C105", "title": "The advice to squeeze", "statement": "zsqueezeNeeded says that a file should be squeezed when much of it is dead or reclaimed, many of its records were deleted or renamed, or it has errors, and more of these never turns yes into no; of a file that has just been squeezed it says no.", "quantifier": "all files of version 7, with all numbers of records, sizes and counts", "why_tests_cant": "all combinations of the counts in the header of a file, and all numbers of records", "anchors": ["heclib/heclib_c/src/Public/zsqueezeNeeded.c:zsqueezeNeeded", "heclib/heclib_c/src/Internal/znewFileSize.c:znewFileSize", "heclib/heclib_c/src/Public/zsqueeze7.c:zsqueeze7"]}
{"id": "C106", "title": "A catalog in a file", "statement": "Writing a catalog to a file with zcatalogFile, with or without a name for that file, leaves the DSS file as it is; without a name, the catalog of name.dss goes to name.dsc.", "quantifier": "all names of DSS files that zopen takes, all names of catalog files", "why_tests_cant": "all names", "anchors": ["heclib/heclib_c/src/Public/zcatalogFile.c:zcatalogFile", "heclib/heclib_c/src/Utilities/copyAndTrim.c:copyAndTrim", "heclib/heclib_c/src/System/zfileName.c:zfileName", "heclib/heclib_c/src/System/zopenFile.c:zopenFile"]}
{"id": "C107", "title": "Aliases of a record", "statement": "After any adding and removing of aliases of a record, zaliasNumber and zaliasList find those that were added and not removed since, the last one first, and zaliasGetPrimary leads from each of them to the record.", "quantifier": "all histories of adding and removing aliases", "why_tests_cant": "all histories; the aliases are a linked list in the file", "anchors": ["heclib/heclib_c/src/Public/zaliasAdd.c:zaliasAdd", "heclib/heclib_c/src/Public/zaliasRemove.c:zaliasRemove", "heclib/heclib_c/src/Public/zaliasNumber.c:zaliasNumber", "heclib/heclib_c/src/Public/zaliasList.c:zaliasList", "heclib/heclib_c/src/Public/zaliasGetPrimary.c:zaliasGetPrimary"]}
