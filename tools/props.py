# Generates /verif/properties.jsonl (run from /verif).
import json
P=[]
def p(id,title,statement,quantifier,why,anchors):
    P.append(dict(id=id,title=title,statement=statement,quantifier=quantifier,why_tests_cant=why,anchors=anchors))
D="heclib/heclib_c/src/Utilities/DateTime/"
I="heclib/heclib_c/src/Internal/"
PU="heclib/heclib_c/src/Public/"
SP="heclib/heclib_c/src/SemiPublic/"
U="heclib/heclib_c/src/Utilities/"
S="heclib/heclib_c/src/System/"
p("C01","Calendar dates map to consecutive Julian days",
  "yearMonthDayToJulian numbers the days of the proleptic Gregorian calendar consecutively with 01Jan1900 = 1: the day after any date (year 5 or later) has the next integer.",
  "every calendar date of year >= 5 (all years, no upper bound)",
  "unboundedly many dates; leap century rules interact with month and year boundaries",
  [D+"yearMonthDayToJulian.c:yearMonthDayToJulian", D+"isLeapYear.c:isLeapYear"])
p("C02","Julian days convert back to the same date",
  "julianToYearMonthDay inverts yearMonthDayToJulian: a stored time stamp is always reported as the date it was written with, and always as a valid month and day of month.",
  "every calendar date of year >= 5 and every first guess of the year within the search window",
  "all dates; correctness of the year search depends on the floating point first guess",
  [D+"julianToYearMonthDay.c:julianToYearMonthDay"])
p("C03","Out of range months roll over to the right year",
  "yearMonthDayToJulian with a month number outside 1..12 names the same day as the date moved by that number of months; incrementing by months relies on it.",
  "every year >= 5 (after normalisation), every integer month, every day",
  "all integers, including negative months where C division truncates",
  [D+"yearMonthDayToJulian.c:yearMonthDayToJulian"])
p("C04","Day of week advances by one per day",
  "dayOfWeek returns a number 1..7 that follows the real seven day cycle for every date the library can store.",
  "every integer Julian day (dates before 1900 are negative)",
  "the C remainder operator changes sign for negative days, which a test of recent dates never sees",
  [D+"dayOfWeek.c:dayOfWeek"])
p("C05","Time normalisation keeps the instant",
  "cleanTime brings any defined (day, time) pair (neither day = undefined nor the pair 0,0, which also means undefined) to the unique representation with 1 <= time <= one day and does not change the instant represented.",
  "every day, every (positive, zero, negative) time of day, every granularity",
  "all integers and granularities", [D+"cleanTime.c:cleanTime"])
p("C06","Time comparison is a total order on instants",
  "For defined times compareTimes is negative, zero or positive exactly as the first instant is before, equal to or after the second, regardless of granularity and base date used to express them.",
  "all pairs of instants, base dates and granularities","infinite domain, must be a consistent order for binary searches and merges",
  [D+"compareTimes.c:compareTimes", D+"isTimeInRange.c:isTimeInRange"])
p("C07","Incrementing a time by n intervals adds exactly n*interval",
  "For intervals shorter than ten days incrementTime moves the instant by exactly periods*interval seconds, returns a normalised time, and two increments compose to one (except where the sum is day 0 time 0, which encodes an undefined time).",
  "every interval below ten days, every number of periods (negative too), every start",
  "all integers; composition over histories of increments",[D+"incrementTime.c:incrementTime"])
p("C08","numberPeriods counts the increments",
  "For intervals shorter than ten days numberPeriods(t, incrementTime(t, n)) = n, so value positions computed on write and on read agree.",
  "every interval below ten days, every n, every start","all integers",
  [D+"numberPeriods.c:numberPeriods", D+"incrementTime.c:incrementTime"])
p("C09","Month and year increments stay on end of period",
  "incrementTime with a tri-month, semi-month, monthly or yearly interval applied to a standard end of period time yields the end of period n periods later, and composes additively.",
  "every year, month and integer n","all integers; month lengths and leap years",
  [D+"incrementTime.c:incrementTime", PU+"ztsOffsetAdjustToStandard.c:ztsOffsetAdjustToStandard"])
p("C10","numberPeriods counts whole years and months",
  "numberPeriods between two standard (end of period) times of a tri-month, semi-month, monthly or yearly series is the number of periods between them.",
  "all pairs of years and months","the yearly formula is only wrong when month or day differ",
  [D+"numberPeriods.c:numberPeriods"])
p("C11","Offsets and standard times are inverse",
  "For an interval, every time has an offset in [0, interval), removing it gives a standard time at or after it, and adding the offset back to the standard time gives the original time.",
  "every instant and every interval of one week or less, months and years","all instants",
  [PU+"ztsOffset.c:ztsOffset", PU+"ztsOffsetAdjustToStandard.c:ztsOffsetAdjustToStandard", PU+"ztsOffsetAdjustToOffset.c:ztsOffsetAdjustToOffset"])
p("C12","Blocks partition time",
  "Block start dates computed for a time are at or before the time and the next block start is after it, and stepping from block to block visits consecutive, non overlapping, gap free blocks.",
  "every day from year 100 on and every interval / irregular block size","all days; month, year, decade and century boundaries",
  [I+"ztsRegGetBlockStart.c:ztsRegGetBlockStart", I+"ztsIrregGetBlockStart.c:ztsIrregGetBlockStart", I+"ztsIncrementBlock.c:ztsIncrementBlock"])
p("C13","Interval names and seconds convert both ways",
  "For every standard interval, the name obtained from its length in seconds converts back to the same length, lengths are positive and strictly ordered, and no two regular intervals share a name or a length.",
  "every standard interval of both file versions","needs the whole table and every lookup order",
  [SP+"ztsGetStandardInterval.c:ztsGetStandardInterval","heclib/heclib_c/src/headers/standardIntervals.h:eParts7"])
p("C14","Interval names are recognised regardless of letter case",
  "Looking up an E part gives the same interval whatever the case of its letters, and a full interval name is never mistaken for another interval.",
  "every string","all strings and prefixes",[SP+"ztsGetStandardInterval.c:ztsGetStandardInterval",PU+"zpathnameCompare.c:zstringCompare"])
p("C15","Times of day survive formatting and parsing",
  "secondsToTimeString followed by timeStringToSeconds returns the same time of day.",
  "every second of the day, every millisecond, every style","86400 times several styles times separators",
  [D+"secondsToTimeString.c:secondsToTimeString", D+"timeStringToSeconds.c:timeStringToSeconds"])
p("C16","Years with two digits and centuries",
  "addCentury leaves four digit years alone and maps two digit years to this century; it is idempotent.",
  "every year","all integers",[D+"addCentury.c:addCentury"])
p("C17","Pairs of 32 bit integers survive packing in 64 bit words",
  "i8toi4(i4toi8(a,b)) = (a,b) and i4toi8(i8toi4(w)) = w on machines of either byte order, and both byte orders give the same word.",
  "all pairs of ints and all words","2^64 cases",[U+"i4toi8.c:i4toi8",U+"i8toi4.c:i8toi4"])
p("C18","Byte swapping is its own inverse",
  "zswap and zswitchInts applied twice give back the array, whatever its length; zswap of one word reverses its bytes.",
  "arrays of any length and content","all arrays",[S+"zswap.c:zswap",S+"zswitchInts.c:zswitchInts"])
p("C19","Repeat compression loses nothing",
  "Values, quality or notes compressed with the repeat bit map are recovered exactly by uncompressing the whole block or any window of it.",
  "arrays of any length, any element size, any window start and end","all contents and window positions, bit map word boundaries",
  [I+"ztsRegRepeatCompress.c:ztsRegRepeatCompress",I+"ztsRegRepeatUncompress.c:ztsRegRepeatUncompress"])
p("C20","Error codes identify their parts",
  "zerrorDecode recovers severity, functions, error and system status from zerrorEncode; every encoded error is negative, every one of severity invalid-argument or worse is recognised by zisError (warnings and informational codes are not) and no success or record-not-found status is.",
  "all field values in their two digit ranges","10^9 combinations",
  [I+"zerrorEncode.c:zerrorEncode",I+"zerrorDecode.c:zerrorDecode",SP+"zisError.c:zisError",I+"zerrorSeverity.c:zerrorSeverity"])
p("C21","Path hashing ignores case and stays in the table",
  "The record and table hash of a pathname do not depend on letter case, the record hash is never zero (zero marks an empty slot), and the table hash is a valid table index.",
  "every byte string, every table size","all strings",[I+"zhash.c:zhash"])
p("C22","Pathname parts survive forming and parsing",
  "zpathnameGetPart(i) of zpathnameForm(A..F) is the trimmed i-th part (its first 128 characters), and zpathnameSetPart changes that part of a complete pathname only.",
  "all parts without a slash, all part positions","all strings",
  [PU+"zpathnameForm.c:zpathnameForm",PU+"zpathnameGetPart.c:zpathnameGetPart",PU+"zpathnameSetPart.c:zpathnameSetPart",PU+"zpathnamePartPositions.c:zpathnamePartPositions"])
p("C23","Pathname buffers are never overrun",
  "zpathnameForm, zpathnameClean and zpathnameSetPart write only inside the buffer size they are given.",
  "all strings and buffer sizes","depends on exact lengths at the buffer boundary",
  [PU+"zpathnameForm.c:zpathnameForm",PU+"zpathnameClean.c:zpathnameClean",PU+"zpathnameSetPart.c:zpathnameSetPart"])
p("C24","Pathname comparison is case insensitive equality",
  "zpathnameCompare and zstringCompare accept exactly the strings equal up to letter case over the compared length; the relation is an equivalence.",
  "all pairs of strings","all strings",[PU+"zpathnameCompare.c:zpathnameCompare",PU+"zpathnameCompare.c:zstringCompare"])
p("C25","Free space is never handed out twice",
  "Space returned by zgetFileSpace never overlaps space still in use or space still in the reclaim table, and reclaimed space plus live space never exceeds the file.",
  "every sequence of allocations and releases, any table size","histories of any length",
  [I+"zgetFileSpace.c:zgetFileSpace",I+"zreleaseFileSpace.c:zreleaseFileSpace"])
p("C26","Write buffering is invisible",
  "Any sequence of buffered writes, reads and flushes returns and finally leaves on disk exactly what unbuffered writes would.",
  "all sequences, addresses, lengths and buffer sizes","histories of any length",
  [I+"zputBuff.c:zputBuff",I+"zgetBuff.c:zgetBuff",I+"zflushBuffers.c:zflushBuffers"])
p("C27","A read returns what was last written",
  "After any sequence of record writes and deletes, reading a pathname returns the header and data of the last write to that pathname (ignoring letter case), or not-found if there is none since its last deletion.",
  "all histories, all pathnames (hash collisions included), all record sizes","histories of any length, collisions",
  [I+"zwriteInternal.c:zwriteInternal",I+"zreadInternal.c:zreadInternal",I+"zcheckInternal.c:zcheckInternal",I+"zwriteNew.c:zwriteNew",I+"zwriteExisting.c:zwriteExisting",I+"zbinUpdate.c:zbinUpdate"])
p("C28","Operations on one record leave all other records alone",
  "Writing, growing or deleting a record changes neither the contents nor the existence of any record with a different pathname.",
  "all files, all pairs of pathnames, all record sizes","histories of any length; overlap appears only for particular size patterns",
  [I+"zwriteInternal.c:zwriteInternal",I+"zwriteExisting.c:zwriteExisting",I+"zdeleteInternal.c:zdeleteInternal"])
p("C29","Deleting hides exactly one record and undelete brings it back",
  "After zdelete the pathname is not found; deleting a missing record reports not-found and changes nothing; zundelete right after zdelete restores the record with its data.",
  "all files and pathnames","histories",[I+"zdeleteInternal.c:zdeleteInternal","heclib/heclib_c/src/DssInterface/v6and7/zundelete.c:zundelete"])
p("C30","The file layout stays well formed",
  "Every bin chain is acyclic and stays inside the file; record areas, bins, hash table and header never overlap, after any sequence of operations.",
  "all histories","reachability over unbounded histories",
  [I+"zbinNew.c:zbinNew",I+"zbinUpdate.c:zbinUpdate",I+"zwriteNew.c:zwriteNew",I+"zwriteExisting.c:zwriteExisting"])
p("C31","Version numbers count writes",
  "A new record has version 1 and every further write of the same record increases its version by one.",
  "all histories","histories",[I+"zwriteNew.c:zwriteNew",I+"zwriteExisting.c:zwriteExisting"])
p("C32","The record count equals the number of records",
  "The number of records reported for a file is the number of pathnames that can be read.",
  "all histories of writes and deletes","histories",[I+"zwriteNew.c:zwriteNew",I+"zdeleteInternal.c:zdeleteInternal"])
p("C33","Rewriting a record in place stays inside its allocation",
  "When a record is rewritten without moving, the words written lie inside the space allocated to that record.",
  "all old and new section sizes","depends on parity combinations of seven section sizes",
  [I+"zwriteExisting.c:zwriteExisting",I+"zwriteNew.c:zwriteNew"])
p("C34","Status filtering",
  "A lookup wanting valid records never returns a deleted, renamed or moved one, a lookup wanting deleted ones never returns a valid one.",
  "all status codes and filters","all pairs",[I+"zcompareRecordStatus.c:zcompareRecordStatus"])
p("C35","At most one process writes",
  "Two processes never both hold the write lock, whatever the interleaving of lock and unlock calls and of switches between single and multi user mode.",
  "every number of processes and every schedule","schedules",
  [I+"zlockActive.c:zlockActive",I+"zlockPassive.c:zlockPassive",S+"zlockdss.c:zlockDss"])
p("C36","Merging irregular data keeps time order and lets new data win",
  "Merging stored and new irregular values gives strictly increasing times, contains every new value, every stored value whose time is not rewritten, and nothing else.",
  "all sorted inputs of any length","all interleavings",[I+"ztsIrregMergeBlocks.c:ztsIrregMergeBlocks"])
p("C37","Replacing irregular data over a window keeps the rest",
  "Storing irregular data in replace mode removes the stored values inside the window, adds the new ones and keeps all stored values outside it.",
  "all sorted inputs, all windows","data before and after the window in all proportions",[I+"ztsIrregMergeBlocks.c:ztsIrregMergeBlocks"])
p("C38","Storage flags of regular data decide value by value",
  "Storing into a regular block replaces all positions (flag 0), only missing stored values (flag 1), or only where the new value is not missing (flag 4), and leaves every position outside the stored range unchanged.",
  "all block sizes, positions and values","all positions and lengths",[I+"ztsRegStoreBlock.c:ztsRegStoreBlock"])
p("C39","Regular series read back what was stored",
  "Retrieving any window of a regular series returns for each position the last value stored at that time and missing elsewhere, across block boundaries and after trimming of missing values.",
  "all series lengths, starts and block splits","all windows and histories",
  [I+"ztsStoreReg7.c:ztsStoreReg7",I+"ztsRetrieveReg7.c:ztsRetrieveReg7",I+"ztsRegReadBlock.c:ztsRegReadBlock"])
p("C40","Trimming removes only missing ends",
  "ztsTrim removes exactly the leading and trailing missing values and keeps first and last valid values and everything between, together with their times.",
  "all series","all positions",[I+"ztsTrim.c:ztsTrim",I+"ztsFirstLastValidValues.c:ztsFirstLastValidValues"])
p("C41","A crash during a write leaves other records readable",
  "If the process stops after any prefix of the disk writes that make up storing a record, every other record still reads back unchanged, and the record itself is old, new, or reported missing until its catalogue entry is written.",
  "every crash point of every write","crash points times histories",
  [I+"zwriteInternal.c:zwriteInternal",I+"zwriteNew.c:zwriteNew",I+"zbinUpdate.c:zbinUpdate"])
p("C42","Packed time series data are unpacked unchanged",
  "Any window of the values, quality flags and notes of a time series block, packed (with repeats removed when the library decides so) in a record's data area, is unpacked to exactly the elements given, and packing never writes beyond the work array.",
  "all element sizes, numbers of elements, windows and decisions to compress","all patterns of repeats",
  [I+"ztsAggregate.c:ztsAggregate",I+"ztsDisaggregate.c:ztsDisaggregate",I+"ztsRegRepeatCompress.c:ztsRegRepeatCompress"])
p("C43","No update of the file header is lost between processes",
  "An update that one process made to the file's bookkeeping (sizes, addresses, counts) is on disk after it unlocks and is never overwritten by another process working from an older copy.",
  "every number of processes and every schedule, processes dying included","schedules and crash points",
  [I+"zlockActive.c:zlockActive",I+"zpermRead.c:zpermRead",I+"zpermWrite.c:zpermWrite","heclib/heclib_c/src/Public/zrename.c:zrename"])
p("C44","A single user gives way to a second writer",
  "A process that keeps the file locked because it is the only writer releases it at the end of its next operation once another process has announced that it wants to write.",
  "every state of the lock table","schedules",
  [I+"zlockActive.c:zlockActive",I+"zlockPassive.c:zlockPassive"])
p("C45","Dates written as text read back as the same date",
  "A date that the library writes as text in any style showing the day and the full year is read back by the library as the same year, month and day, and a day number survives the conversion to text and back.",
  "every day, month, year and full style","the domain of dates times styles is unbounded in the year; tests cover a handful of dates",
  [U+"DateTime/yearMonthDayToDate.c:yearMonthDayToDate",U+"DateTime/dateToYearMonthDay.c:dateToYearMonthDay",U+"DateTime/dateToJulian.c:dateToJulian",U+"DateTime/julianToDate.c:julianToDate",U+"findInt.c:findInt"])
p("C46","Irregular series read back what was stored",
  "After any sequence of stores of irregular data in the default mode, retrieving any time window returns, in time order, exactly the values in the window that the stores leave, each with its own time, across block boundaries and whatever base dates were used.",
  "all sequences of stores, numbers of values, block sizes, base dates and windows","all histories times windows",
  [I+"ztsStoreIrreg7.c:ztsStoreIrreg7",I+"ztsIrregStoreBlock.c:ztsIrregStoreBlock",I+"ztsRetrieveIrreg7.c:ztsRetrieveIrreg7",I+"ztsIrregReadBlock.c:ztsIrregReadBlock",U+"DateTime/isTimeInRange.c:isTimeInRange"])
p("C47","Previous and next value of a window",
  "Asked for the value before and/or after the time window, the retrieval of irregular data adds exactly the last value before the window and/or the first one after it.",
  "all histories of stores, windows and flags","all positions of values relative to windows and blocks",
  [I+"ztsRetrieveIrreg7.c:ztsRetrieveIrreg7",I+"ztsIrregReadBlock.c:ztsIrregReadBlock"])
p("C48","The catalog lists exactly the records of the file",
  "After any history of writes, deletes and undeletes, the catalog lists every pathname that can be read once and no other, with the type and last write time of the record; a pathname pattern, a range of types, a condition on the last write time and a maximal number of rows select exactly the rows that meet them, in the order of the full catalog.",
  "all histories, hash collisions, bin sizes and requests","all histories times requests",
  [I+"zcatalogInternal.c:zcatalogInternal",I+"zcompareRecordStatus.c:zcompareRecordStatus",I+"zbinNew.c:zbinNew",I+"zwriteExisting.c:zwriteExisting"])
p("C49","Wild characters in a catalog request",
  "For a pathname pattern of six parts, the catalog finds exactly the pathnames each of whose parts matches that of the pattern, letter case ignored: a star alone matches anything, a star at the end any continuation, a star at the start any beginning, stars at both ends anything around the text, and other text matches itself; a pattern without six parts finds every pathname.",
  "all patterns, pathnames and contents of uninitialised memory","all patterns times pathnames",
  [I+"zcatParsePath.c:zcatParsePath",I+"zcatComparePath.c:zcatComparePath",PU+"zfindString.c:zfindString"])
p("C50","Renaming moves a record and nothing else",
  "Renaming a record succeeds if it exists; afterwards it is found unchanged, with its version and time of last write, under the new pathname (time series keep their D and E parts) and no longer under the old one, a record that had the new pathname is gone, and every other record is as before; changing only the case of letters changes no read; renaming a record that does not exist reports that.",
  "all histories of writes, deletes, undeletes and renames before, all pathnames, hash collisions and sizes","all histories times pairs of pathnames",
  ["heclib/heclib_c/src/Public/zrename.c:zrename",U+"mallocAndCopyPath.c:mallocAndCopyPath",U+"stringCat.c:stringCat",PU+"zpathnameSetPart.c:zpathnameSetPart",I+"zbinUpdate.c:zbinUpdate"])
p("C51","Units, type and time zone are kept with the data",
  "The units, types and the time zone stored with a time series or paired data are returned when the record is read, without blanks at the ends; a string that was not given is not returned, one the caller already had from the library is kept, nothing outside the arrays is read or written, and a record with a header of an older version keeps its strings when it is copied.",
  "all strings, given or not, profiles or not, and contents of uninitialised memory","all combinations of strings and lengths",
  [I+"ztsInternalHeaderPack.c:ztsInternalHeaderPack",I+"ztsInternalHeaderUnpack.c:ztsInternalHeaderUnpack",I+"zpdUnitsToHead.c:zpdUnitsToHead",I+"zcharTo8Byte.c:zcharTo8Byte",U+"stringHeaderUtility.c:appendStringToHeader",U+"mallocAndCopyTrim.c:mallocAndCopyTrim",I+"zcopyRecordInternal.c:zcopyRecordInternal"])
p("C52","A copy of a file has the records of the original",
  "Copying all records into a new file, as squeezing a file does, succeeds; the new file has as many records as the original, and reading any pathname gives the same in both: values, headers, type, version and time of the last write. Records that were deleted are not in the copy. The sizes of hash table and bins of the new file may be different. Afterwards the new file behaves like one to which the records had been written.",
  "all histories of the original, values, pathnames, sizes of both files, and calls on the copy afterwards","all histories times sizes of two files",
  ["heclib/heclib_c/src/Public/zcopyFile.c:zcopyFile",I+"zcopyRecordInternal.c:zcopyRecordInternal",PU+"zsqueeze7.c:zsqueeze7",I+"zcompareRecordStatus.c:zcompareRecordStatus"])
p("C53","Text and arrays read back as they were stored",
  "Text, with its labels and table, and arrays of ints, floats and doubles that are stored are read back element by element, whatever is called next about other records and whatever the letter case of and the blanks behind the pathname; no other record changes. A store whose pathname holds a record of another type is refused and changes no read; a store without a character, or with a number but no characters, is refused. A record of another type is not read as text or arrays.",
  "all contents, lengths, histories before and after, and pathnames","all contents times histories",
  ["heclib/heclib_c/src/Public/ztextStore.c:ztextStore","heclib/heclib_c/src/Public/ztextRetrieve.c:ztextRetrieve","heclib/heclib_c/src/Public/zarrayStore.c:zarrayStore","heclib/heclib_c/src/Public/zarrayRetrieve.c:zarrayRetrieve","heclib/heclib_c/src/DssInterface/v6and7/zwrite.c:zwrite",U+"verticalDatum.c:userHeaderToString"])
p("C54","Paired data read back as they were stored",
  "Paired data stored as a whole, over no record, over paired data or over a record of another type, are read back number by number, in full or for any range of ordinates and curves, as floats or as doubles, with labels, units, types, axis, precisions and user header, whatever is called next about other records and whatever the letter case of and the blanks behind the pathname; no other record changes. Without data nothing is stored. A record of another type is not read as paired data.",
  "all data, sizes, labels, strings, ranges asked for, storage flags, histories before and after, and pathnames","all contents and ranges times histories",
  ["heclib/heclib_c/src/Public/zpdStore.c:zpdStore","heclib/heclib_c/src/Public/zpdRetrieve.c:zpdRetrieve","heclib/heclib_c/src/DssInterface/v6and7/zdataType.c:zdataType"])
p("C55","Storing a part of paired data replaces this part only",
  "Storing values for a range of ordinates and curves of paired data in the file replaces exactly these values, converted to the type in the record; ordinates, other values, labels, units and user header stay, and no other record changes, whatever is called next about other records. Where there is no paired data record nothing is changed. Reading a range, as floats or as doubles, gives this range of what reading everything gives. Labels given with the values replace those of the curves named.",
  "all data in the file, ranges, values, histories before (with other partial stores among them) and after, and pathnames","all ranges times contents times histories",
  ["heclib/heclib_c/src/Public/zpdStore.c:zpdStore","heclib/heclib_c/src/Public/zpdRetrieve.c:zpdRetrieve"])
p("C56","The location of a place reads back as it was stored",
  "A location stored for the parts A and B of a pathname is read back, coordinates, coordinate system, units, datums, time zone and other text, by every pathname with the same parts A and B in any letter case, whatever is called next about other records; no other record changes. With flag 0 a location that is there stays. Deleting a location deletes it and nothing else.",
  "all locations, pathnames, flags, histories before and after","all contents times histories",
  ["heclib/heclib_c/src/Public/zlocationStore.c:zlocationStore","heclib/heclib_c/src/Public/zlocationRetrieve.c:zlocationRetrieve","heclib/heclib_c/src/Public/zlocationDelete.c:zlocationDelete","heclib/heclib_c/src/Public/zlocationPath.c:zlocationPath","heclib/heclib_c/src/SemiPublic/zlocationStructValid.c:zlocationStructValid"])
p("C57","Text and arrays read into the caller's memory by the public interface",
  "A text stored with hec_dss_textStore is read by hec_dss_textRetrieve into the buffer of the caller, as much of it as there is room for, with a status that says whether it was all; arrays stored with hec_dss_arrayStore are read by hec_dss_arrayRetrieve into memory of the lengths hec_dss_arrayRetrieveInfo tells; whatever is called in between about other records. Nothing is written behind the lengths given, whatever is in the file.",
  "all texts, arrays, buffers, lengths, histories before and after, and pathnames","all contents times buffers times histories",
  ["heclib/hecdss/hecdss.c:hec_dss_textStore","heclib/hecdss/hecdss.c:hec_dss_textRetrieve","heclib/hecdss/hecdss.c:hec_dss_arrayStore","heclib/hecdss/hecdss.c:hec_dss_arrayRetrieveInfo","heclib/hecdss/hecdss.c:hec_dss_arrayRetrieve",U+"mallocAndCopy.c:mallocAndCopy"])
p("C58","Paired data read into the caller's memory by the public interface",
  "Paired data stored with hec_dss_pdStore are read by hec_dss_pdRetrieve into memory of the sizes hec_dss_pdRetrieveInfo tells: all numbers, and of labels, units, types and time zone as much as there is room for, whatever is called in between about other records. With other sizes this is reported and nothing is written. Nothing is written behind the lengths given, whatever is in the file.",
  "all data, strings, buffers, lengths, histories before and after, and pathnames","all contents times buffers times histories",
  ["heclib/hecdss/hecdss.c:hec_dss_pdStore","heclib/hecdss/hecdss.c:hec_dss_pdRetrieveInfo","heclib/hecdss/hecdss.c:hec_dss_pdRetrieve","heclib/heclib_c/src/Public/zstructPdNewDoubles.c:zstructPdNewDoubles"])
p("C59","Locations read into the caller's memory by the public interface",
  "A location stored with hec_dss_locationStore is read by hec_dss_locationRetrieve: coordinates, coordinate system, units, datums, and of the two strings as much as there is room for, through every pathname with the same parts A and B, whatever is called in between about other records.",
  "all locations, buffers, lengths, histories before and after, and pathnames","all contents times buffers times histories",
  ["heclib/hecdss/hecdss.c:hec_dss_locationStore","heclib/hecdss/hecdss.c:hec_dss_locationRetrieve"])
p("C60","The catalog of the public interface fits the record count and the caller's memory",
  "With memory for as many pathnames as hec_dss_record_count says, hec_dss_catalog returns every pathname that can be read, each once, in its slot with a zero byte behind it, with its type; with a filter those that match; with less room the first of them. Nothing is written behind the slots.",
  "all histories, filters, counts and buffers","all histories times buffers",
  ["heclib/hecdss/hecdss.c:hec_dss_catalog","heclib/hecdss/hecdss.c:hec_dss_record_count",U+"stringCopy.c:stringCopy"])
p("C61","A grid reads back as it was stored",
  "A grid stored with zspatialGridStore, without compression, with zlib or compressed by the caller, is read back by zspatialGridRetrieve by the same name in any letter case, whatever is called next about other records: type, sizes, strings, cell size and origin, null value, statistics, table of ranges, and, if asked for, every cell. No other record changes. Nothing is stored if the compression or the type of cells is not known or zlib fails; a record that is not a grid is not read as one.",
  "all grids (numbers, strings, ranges, cells), ways of compression, histories before and after, and pathnames","all contents times histories",
  ["heclib/heclib_c/src/Public/zspatialGridStore.c:zspatialGridStore_extended","heclib/heclib_c/src/Public/zspatialGridRetrieve.c:zspatialGridRetrieve","heclib/heclib_c/src/Public/zlibcompress.c:compress_zlib","heclib/heclib_c/src/headers/zStructSpatialGrid.h"])
p("C62","Grids read into the caller's memory by the public interface",
  "A grid stored with hec_dss_gridStore is read by hec_dss_gridRetrieve into the variables and the memory of the caller: all numbers, and of each string, of the ranges and of the cells as much as there is room for, whatever is called in between about other records. Nothing is written behind the lengths given, whatever is in the file.",
  "all grids, buffers, lengths, histories before and after, and pathnames","all contents times buffers times histories",
  ["heclib/hecdss/hecdss.c:hec_dss_gridStore","heclib/hecdss/hecdss.c:hec_dss_gridRetrieve"])
p("C63","Regular time series in a file among other records",
  "Stores of a regular series, among any other calls on the file, succeed and change no record that is not a block of the series; whatever the order, overlaps, block boundaries, storage flags and D parts used, retrieving any window gives for every standard time the value the stores leave there (or missing), and the units, type, precision and offset stored.",
  "all intervals (not weekly), start times, values, flags, numbers of stores, histories of the file before, between and after, and windows","all histories times windows times contents of the file",
  ["heclib/heclib_c/src/Internal/ztsStoreReg7.c:ztsStoreReg7","heclib/heclib_c/src/Internal/ztsRetrieveReg7.c:ztsRetrieveReg7","heclib/heclib_c/src/Internal/ztsRegStoreBlock.c:ztsRegStoreBlock","heclib/heclib_c/src/Internal/ztsWriteBlock.c:ztsWriteBlock","heclib/heclib_c/src/Internal/ztsRegReadBlock.c:ztsRegReadBlock"])
p("C64","Irregular time series in a file among other records",
  "Stores of an irregular series, among any other calls on the file, succeed and change no record that is not a block of the series; whatever the order, overlaps and block boundaries, retrieving any window gives in order of time exactly the values and quality flags the stores leave there, with their times, and the units, type and precision stored.",
  "all five block sizes, base dates, times, values, numbers of stores, histories of the file before, between and after, and windows","all histories times windows times contents of the file",
  ["heclib/heclib_c/src/Internal/ztsStoreIrreg7.c:ztsStoreIrreg7","heclib/heclib_c/src/Internal/ztsRetrieveIrreg7.c:ztsRetrieveIrreg7","heclib/heclib_c/src/Internal/ztsIrregStoreBlock.c:ztsIrregStoreBlock","heclib/heclib_c/src/Internal/ztsWriteBlock.c:ztsWriteBlock","heclib/heclib_c/src/Internal/ztsIrregReadBlock.c:ztsIrregReadBlock","heclib/heclib_c/src/Internal/ztsGetSizesInternal.c:ztsGetSizesInternal"])
p("C65","F parts with tags have one normal form",
  "Normalizing an F part with tags succeeds for exactly the well formed ones (known letters, each once, values of the documented form, at most one text) and puts the tags in the order C, N, T, R, V before the text; nothing is lost, the order of the pieces and the case of the letters do not matter, a normal form stays as it is, and in a pathname the other parts are kept.",
  "all F parts and pathnames","all strings, orders of tags and values",
  ["heclib/heclib_c/src/Utilities/normalizeFPart.c:normalizeFPart","heclib/heclib_c/src/Utilities/normalizeFPart.c:normalizeFPartInPathname","heclib/heclib_c/src/Utilities/normalizeFPart.c:validateFPartTag"])
p("C66","Regular time series through the public interface",
  "Values stored with hec_dss_tsStoreRegular are read by hec_dss_tsRetrieve, whatever the spelling of the E part, the D part given, the texts of the dates, and other calls on the file in between: one value for every standard time of the window, up to the room the caller has, each with its time (base date and granularity given), units, type and time zone; nothing is written behind them, and the times are ints. A pathname without an interval is refused and the file not touched.",
  "all series, stores, windows, histories, spellings of pathnames and texts of times, buffers and sizes","all histories times windows times texts times buffers",
  ["heclib/hecdss/hecdss.c:hec_dss_tsStoreRegular","heclib/hecdss/hecdss.c:hec_dss_tsRetrieve","heclib/heclib_c/src/Internal/ztsProcessTimes.c:ztsProcessTimes","heclib/heclib_c/src/Internal/ztsRegAddTimes.c:ztsRegAddTimes","heclib/heclib_c/src/Public/ztsStore.c:ztsStore","heclib/heclib_c/src/Public/ztsRetrieve.c:ztsRetrieve"])
p("C67","Irregular time series through the public interface",
  "Values stored with hec_dss_tsStoreIregular, with times counted from a base date in seconds, minutes, hours or days, are read by hec_dss_tsRetrieve, whatever the spelling of the E part, the D part given, the texts of the dates, and other calls on the file in between: exactly the values the stores leave in the window, in order of time, up to the room the caller has, each with its time (base date and granularity given) and quality flag, units, type and time zone; nothing is written behind them, and the times are ints. Times that are not in order are refused and the file is not touched.",
  "all series, block sizes, stores, windows, histories, spellings of pathnames and texts of times, buffers and sizes","all histories times windows times texts times buffers",
  ["heclib/hecdss/hecdss.c:hec_dss_tsStoreIregular","heclib/hecdss/hecdss.c:hec_dss_tsRetrieve","heclib/heclib_c/src/Internal/ztsProcessTimes.c:ztsProcessTimes","heclib/heclib_c/src/Public/zstructTsNewIrregDoubles.c:zstructTsNewIrregDoubles","heclib/heclib_c/src/Internal/ztsStoreIrreg7.c:ztsStoreIrreg7","heclib/heclib_c/src/Internal/ztsRetrieveIrreg7.c:ztsRetrieveIrreg7"])
p("C68","Pathnames with an old minute interval",
  "A call looks up exactly the pathname it is given, unless the E part has the version 6 form of a minute interval (one or two characters and MIN, such as 15MIN). Such a name is a second name of the pathname with Minute for MIN: reading, deleting and writing through it act on the record under the new name, and a record stored under it can be read back.",
  "all pathnames, files and histories of calls","all pathnames times all histories",
  ["heclib/heclib_c/src/DssInterface/v6and7/zcheck.c:zcheck","heclib/heclib_c/src/Internal/ztsPathCompatible.c:ztsPathCompatible","heclib/heclib_c/src/Internal/zreadInfo.c:zreadInfo","heclib/heclib_c/src/Internal/zwriteNew.c:zwriteNew","heclib/heclib_c/src/Internal/zbinUpdate.c:zbinUpdate"])
p("C69","Date and time range of a block of a series",
  "After any history of stores of a regular time series and other calls on the file, asking for the date and time range of the pathname of one of its blocks gives the times of the first and the last value of the block that is not missing, and fails if and only if all values of the block are missing.",
  "all files and histories of calls, series, intervals, stores, blocks","all histories times all series",
  ["heclib/hecdss/hecdss.c:hec_dss_tsGetDateTimeRange","heclib/heclib_c/src/Public/ztsGetDateTimeRange.c:ztsGetDateTimeRange","heclib/heclib_c/src/SemiPublic/ztsGetFirstLastRecordTimes.c:ztsGetFirstLastRecordTimes","heclib/heclib_c/src/Internal/ztsRegStoreBlock.c:ztsRegStoreBlock"])
p("C70","Type of a record",
  "After any history of writes, deletes, undeletes and renames, hec_dss_recordType of a pathname gives the type of the record as it was written last, and -1 if there is none; hec_dss_dataType gives the same type for a record, and otherwise a guess from the E part: 100 for regular, 110 for irregular intervals, 0 for anything else. Blocks of series of floats and doubles have types 100 and 105 (regular), 110 and 115 (irregular).",
  "all pathnames, files and histories of calls","all pathnames times all histories",
  ["heclib/hecdss/hecdss.c:hec_dss_recordType","heclib/hecdss/hecdss.c:hec_dss_dataType","heclib/heclib_c/src/DssInterface/v6and7/zdataType.c:zdataType","heclib/heclib_c/src/Internal/zgetRecordBasics7.c:zgetRecordBasics7","heclib/heclib_c/src/Public/ztsGetInterval.c:ztsGetInterval"])

p("C71","Squeeze",
  "hec_dss_squeeze of a file made by any history succeeds; afterwards the file has the same records as before (data, headers, versions, times), no deleted ones, can be used like any other file, the temporary file is gone and no other file has changed. Wherever a squeeze is cut off, all records are in the file itself or in the temporary file.",
  "all files made by the library, names, directories, and all points where a squeeze is cut off","all histories times all crash points; a crash between two writes cannot be enumerated by tests",
  ["heclib/hecdss/hecdss.c:hec_dss_squeeze","heclib/heclib_c/src/DssInterface/v6and7/zsqueeze.c:zsqueeze","heclib/heclib_c/src/Public/zsqueeze7.c:zsqueeze7","heclib/heclib_c/src/Internal/copyFile.c:copyFile","heclib/heclib_c/src/Utilities/getFileFromPath.c:getFileFromPath"])
p("C72","Closing and opening again",
  "A history of calls may be cut into sessions at any place (the file is closed and opened again, by the same or another program): all calls return and read what they would if the file had stayed open.",
  "all histories and all ways to cut them into sessions","unboundedly many histories and cuts",
  ["heclib/heclib_c/src/Internal/zopenInternal.c:zopenInternal","heclib/heclib_c/src/Internal/zpermRead.c:zpermRead","heclib/heclib_c/src/Internal/zwriteInternal.c:zwriteInternal","heclib/heclib_c/src/Internal/zcloseInternal.c:zcloseInternal"])

p("C73","The check of a file finds nothing",
  "After any history of calls on a file made by the library, the check of the file (zcheckFile) reports no errors: all links of records, all pathnames, all bins and the whole hash table are right.",
  "all histories of writes, deletes, undeletes and renames on a new file","unboundedly many histories; a wrong link may appear only after some sequence of overwrites and deletions",
  ["heclib/heclib_c/src/Public/zcheckFile.c:zcheckFile","heclib/heclib_c/src/SemiPublic/zcheckLinks.c:zcheckLinks","heclib/heclib_c/src/SemiPublic/zcheckPathnames.c:zcheckPathnames","heclib/heclib_c/src/SemiPublic/zcheckPathnameBins.c:zcheckPathnameBins","heclib/heclib_c/src/SemiPublic/zcheckHashTable.c:zcheckHashTable","heclib/heclib_c/src/SemiPublic/zcheckInfo.c:zcheckInfo","heclib/heclib_c/src/Internal/zreadInfoBlock.c:zreadInfoBlock"])

p("C74","Sizes of a series in a window",
  "After any history of stores of a series and other calls, hec_dss_tsGetSizes for a window gives the number of values that hec_dss_tsRetrieve of the same pathname and window gives, and the size of the quality flags: buffers allocated with it hold the data.",
  "all files and histories of calls, series, intervals, windows","all histories times all windows; the caller sizes buffers with the answer",
  ["heclib/hecdss/hecdss.c:hec_dss_tsGetSizes","heclib/heclib_c/src/DssInterface/v6and7/ztsGetSizes.c:ztsGetSizes","heclib/heclib_c/src/Internal/ztsGetSizesInternal.c:ztsGetSizesInternal"])
p("C75","Units and type of a series",
  "After any history of stores of a series and other calls, hec_dss_tsRetrieveInfo gives the units and the type with which the series was stored (cut at the sizes of the buffers, and nothing behind them is written), and an error for a pathname of no series.",
  "all files and histories of calls, series, pathnames, buffer sizes","all histories times all buffer sizes",
  ["heclib/hecdss/hecdss.c:hec_dss_tsRetrieveInfo","heclib/heclib_c/src/Internal/ztsInternalHeaderUnpack.c:ztsInternalHeaderUnpack"])

p("C76","The check sum of a record",
  "zgetDataCRC of a pathname gives the CRC-32 of the data of the record (user header and values), continued from the number given: equal data have equal check sums, data that differ in one value have different ones, and a missing record has none; this is what the comparison by check sums (zwhatChanged) relies on.",
  "all files and histories, records, pathnames and start numbers","infinitely many pairs of records; a collision of near records would only show for some contents",
  ["heclib/heclib_c/src/Public/zgetDataCRC.c:zgetDataCRC","heclib/heclib_c/src/Public/zgetDataCRC.c:crc32_filltable","heclib/heclib_c/src/Public/zgetDataCRC.c:crc32_block_endian0","heclib/heclib_c/src/Internal/zreadInternal.c:zreadInternal"])

p("C77","What has changed since a start",
  "zwhatChanged lists the records that match the pattern and have been written since zwhatChangedSetStart, new ones included, each once, and no others; with check sums, of these the ones whose data differ from those at the start. The time of the last write in a row of the catalog is that of the record.",
  "all files, histories before and after the start, patterns, both ways of comparison","two histories and a clock; a missed record shows only in some order of writes, deletes and renames",
  ["heclib/heclib_c/src/Public/zwhatChangedSetStart.c:zwhatChangedSetStart","heclib/heclib_c/src/Public/zwhatChangedCompare.c:zwhatChangedCompare","heclib/heclib_c/src/Public/zwhatChanged.c:zwhatChanged","heclib/heclib_c/src/Internal/zcatalogInternal.c:zcatalogInternal"])

p("C78","Undeleting everything",
  "zundeleteAll undoes the deletions: every deleted record can be read again as it was when it was deleted, all other records are as before, and the number returned is the number of records that came back.",
  "all files and histories of writes, deletes, undeletes and renames, all sets of deleted records","the deleted records depend on the whole history: which were written again, deleted twice, or had their place taken",
  ["heclib/heclib_c/src/Public/zundeleteAll.c:zundeleteAll","heclib/heclib_c/src/Internal/zdeleteInternal.c:zdeleteInternal","heclib/heclib_c/src/Internal/zcatalogInternal.c:zcatalogInternal"])

p("C79","Sequence numbers of collections",
  "zsetCollectionSequence returns the given pathname with the F part C:nnnnnn| in front of what stood there, an old sequence number replaced: setting a number twice is setting the last one, different numbers give different pathnames, and no byte outside the new pathname is written.",
  "all pathnames of six parts, all F parts with and without a sequence number, all integers","the range of an integer times all strings; the overrun by one byte does not show in tests",
  ["heclib/heclib_c/src/Public/zsetCollectionSequence.c:zsetCollectionSequence","heclib/heclib_c/src/Public/zpathnameSetPart.c:zpathnameSetPart"])

p("C80","Catalog of a collection",
  "zcollectionCat with a member of a collection as seed lists the members of that collection in the file, whatever their sequence numbers, and no other records.",
  "all files and histories as in C48, all seeds, all pathnames","the pathnames in a file and the seed are arbitrary; only some lengths of sequences fail",
  ["heclib/heclib_c/src/Public/zcollectionCat.c:zcollectionCat","heclib/heclib_c/src/Internal/zcatComparePath.c:zcatComparePath","heclib/heclib_c/src/Internal/zcatParsePath.c:zcatParsePath","heclib/heclib_c/src/Internal/zcatalogInternal.c:zcatalogInternal"])

p("C81","Comparison of members of collections",
  "zpathnameCompareCollection tells whether two pathnames are members of one collection: it says yes if and only if both have a sequence number and agree up to case in all else.",
  "all pairs of pathnames","pairs of arbitrary strings",
  ["heclib/heclib_c/src/Public/zpathnameCompareCollection.c:zpathnameCompareCollection"])

p("C82","Binary files as records",
  "A file stored with zbinaryStoreFromFile and written out with zbinaryRetrieveToFile comes back byte for byte; a call that fails says so and leaves the DSS file and all other files as they were.",
  "all contents of files, file names, pathnames and DSS files","contents of files are arbitrary bytes of any length",
  ["heclib/heclib_c/src/Public/zbinaryStoreFromFile.c:zbinaryStoreFromFile","heclib/heclib_c/src/Public/zbinaryRetrieveToFile.c:zbinaryRetrieveToFile","heclib/heclib_c/src/System/zfileSize.c:zfileSize","heclib/heclib_c/src/System/zopendisk.c:zopenDisk"])

p("C83","Text files as records",
  "A text file stored with ztextStoreFromFile and written out with ztextRetrieveToFile comes back byte for byte, whatever its lines are, after any other calls; no other record and no other file changes; a record that is not there or is no text changes no file.",
  "all contents of files, all pathnames, all histories of the DSS file before and after as in C27","contents are arbitrary, with lines of any length; histories are arbitrary",
  ["heclib/heclib_c/src/Public/ztextStoreFromFile.c:ztextStoreFromFile","heclib/heclib_c/src/Public/ztextRetrieveToFile.c:ztextRetrieveToFile"])

p("C84","Names of DSS files",
  "A file name means the same file with and without the extension .dss, and with and without quotes around it; the name that results, used again, means that file.",
  "all file names and everything that is on the computer","names are arbitrary strings",
  ["heclib/heclib_c/src/System/zfileName.c:zfileName"])

p("C85","Opening never harms a file",
  "hec_dss_open opens a file if and only if it is a DSS file of version 7, and agrees with hec_dss_getFileVersion about that; it makes a new file only where there is none or an empty one, which can then be opened; it changes no file that has something in it, and none at all with read access.",
  "all contents of all files, names, permissions and kinds of access","contents of files are arbitrary bytes",
  ["heclib/heclib_c/src/Internal/zopenInternal.c:zopenInternal","heclib/heclib_c/src/Internal/zpermRead.c:zpermRead","heclib/heclib_c/src/Public/zgetFileVersion.c:zgetFileVersion","heclib/heclib_c/src/System/zopendisk.c:zopenDisk","heclib/heclib_c/src/System/zfileName.c:zfileName"])

p("C86","A sorted catalog has the same records",
  "A sorted catalog gives out exactly the records an unsorted catalog of the same request gives out, each one once, and returns their number; also when the order is taken from the list of addresses stored in the file by an earlier sorted catalog, whatever was written, overwritten, deleted, undeleted or renamed since.",
  "all histories of calls with sorted catalogs in between, all requests and pathnames","the stored list becomes stale or not depending on the history of the file",
  ["heclib/heclib_c/src/Internal/zcatInternalSort.c:zcatInternalSort","heclib/heclib_c/src/Internal/zcatSortPath.c:zcatSortPath","heclib/heclib_c/src/Internal/zsetCatalogSortAddresses.c:zsetCatalogSortAddresses","heclib/heclib_c/src/Internal/zgetCatalogSortAddresses.c:zgetCatalogSortAddresses","heclib/heclib_c/src/Utilities/getLastInt.c:getLastInt"])

p("C87","The order of a sorted catalog",
  "The pathnames of a sorted catalog are in the order of their A, B and C parts; blocks of time series with the same A, B and C parts are in the order of F part, interval and date.",
  "all sets of pathnames and record types, all histories","the order must hold for every pair of records of every file",
  ["heclib/heclib_c/src/Internal/zcatSortPath.c:zcatSortPath","heclib/heclib_c/src/Internal/zcatalogInternal.c:zcatalogInternal","heclib/heclib_c/src/Utilities/toFixedFields.c:toFixedFields","heclib/heclib_c/src/Utilities/sortfiles.c:compare"])

p("C88","Duplicating a record",
  "zduplicateRecord leaves under the new pathname a record with the headers, values, dates, version and time of last write of the original; the original, if it has another pathname, and all other records stay as they are; a record of another type under the new pathname is kept, and a call for a record that is not there changes nothing. The file goes on to behave like any other.",
  "all files in use, with any calls, duplicates and copies before, all records and pathnames","any history of the file, any record",
  ["heclib/heclib_c/src/Public/zduplicateRecord.c:zduplicateRecord","heclib/heclib_c/src/Internal/zcopyRecordInternal.c:zcopyRecordInternal","heclib/heclib_c/src/Utilities/verticalDatum.c:pathnameIsElevTsOrPd"])

p("C89","Copying a record to another file",
  "zcopyRecord leaves in the other file, under the new pathname, a record that reads like the original: headers, values, dates, version and time of last write; no other record of either file changes. Values of a time series are never stored under another date or interval than their own.",
  "all pairs of files in use, all records and pathnames","any histories of both files, any record, any pair of pathnames",
  ["heclib/heclib_c/src/DssInterface/v6and7/zcopyRecord.c:zcopyRecord","heclib/heclib_c/src/Internal/zcopyRecordInternal.c:zcopyRecordInternal","heclib/heclib_c/src/DssInterface/v6and7/zdataType.c:zdataType"])

p("C90","Date and time texts of an instant",
  "The date and the time texts shown for an instant (a position in a time series, a number of minutes since 1900, a number of milliseconds since 1970) name exactly this instant when they are read back; a combined text of date and time gives back the day and the time it was written from, and a text that is not one is refused.",
  "all instants of the years 5 to 9999, all units of time, all date and time styles","any instant, base date, unit of time and style",
  ["heclib/heclib_c/src/Utilities/DateTime/getDateAndTime.c:getDateAndTime","heclib/heclib_c/src/Utilities/DateTime/minsToDateTime.c:minsToDateTime","heclib/heclib_c/src/Utilities/DateTime/millsToDateTime.c:millsToDateTime","heclib/heclib_c/src/Utilities/DateTime/minutesToHourMin.c:minutesToHourMin","heclib/heclib_c/src/Utilities/DateTime/getDateTimeString.c:getDateTimeString","heclib/heclib_c/src/Utilities/DateTime/spatialDateTime.c:spatialDateTime"])

p("C91","What is told about a record is what is read",
  "For every record of a file, the sizes, the type, the version, the dates and the time of the last write that zgetRecordSize, zgetRecordBasics and zgetLastWriteTimeRec report are those of the record that reading its pathname returns; for a pathname without a record they say that there is none.",
  "all files in use, all pathnames, whatever was looked up before","any history of calls, any pathname, any earlier query",
  ["heclib/heclib_c/src/Internal/zgetRecordSize7.c:zgetRecordSize7","heclib/heclib_c/src/Internal/zgetRecordBasics7.c:zgetRecordBasics7","heclib/heclib_c/src/Public/zgetLastWriteTimeRec.c:zgetLastWriteTimeRec"])

p("C92","An error stays an error on its way to the caller",
  "When a function fails and the functions above it pass its status on, each adding its own identity, the caller still gets an error, of the same severity and kind, from which the function where it happened, the function which called it, the number of the error and the status of the system can be read.",
  "all error codes, all chains of calling functions","any severity, fields and any list of callers",
  ["heclib/heclib_c/src/Internal/zerrorUpdate.c:zerrorUpdate","heclib/heclib_c/src/Internal/zerrorEncodeHigh.c:zerrorEncodeHigh","heclib/heclib_c/src/SemiPublic/zerrorSpecifics.c:zerrorSpecifics","heclib/heclib_c/src/SemiPublic/zisError.c:zisError"])

p("C93","Triangulated surfaces round trip",
  "A triangulated surface stored with zspatialTinStore is read back by zspatialTinRetrieve as it was stored: numbers, strings, points, values, connections and labels, by the same pathname in any letter case, whatever is done to other records in between; without data only the numbers and strings. Other records do not change, and a record of another type is neither read nor replaced.",
  "all files, all surfaces of any size, all later calls","any history, any surface, any spelling of the pathname",
  ["heclib/heclib_c/src/Public/zspatialTinStore.c:zspatialTinStore","heclib/heclib_c/src/Public/zspatialTinRetrieve.c:zspatialTinRetrieve","heclib/heclib_c/src/DssInterface/v6and7/zwrite.c:zwrite"])

p("C94","Date and time range of a whole series",
  "Asking for the date and time range of a series over all its records (boolFullSet) finds the first and the last of its records, whatever D part the pathname has, and gives the times of the first and the last value of the whole series that is not missing; it fails if and only if there is no such value. Records of other series and kinds do not matter.",
  "all files and histories of calls, regular series, intervals, stores, D parts of the pathname asked for","all histories times all series and all other records in the file",
  ["heclib/hecdss/hecdss.c:hec_dss_tsGetDateTimeRange","heclib/heclib_c/src/Public/ztsGetDateTimeRange.c:ztsGetDateTimeRange","heclib/heclib_c/src/SemiPublic/ztsGetFirstLastPathnames.c:ztsGetFirstLastPathnames","heclib/heclib_c/src/SemiPublic/ztsGetPathTimeWindow.c:ztsGetPathTimeWindow"])

p("C95","Time patterns are kept",
  "A time pattern (D part TS-Pattern) stored through the public interface, regular or irregular, is read back through it with all its values, times, units, type, precision and time zone, until it is overwritten or deleted, whatever letter case or spelling of the interval the pathname has; no other record changes. The date and time range of a pattern is that of its values.",
  "all files and histories of calls, patterns, values, intervals, texts, sizes of buffers","all histories times all patterns and all later calls",
  ["heclib/hecdss/hecdss.c:hec_dss_tsStoreRegular,hec_dss_tsStoreIregular,hec_dss_tsRetrieve,hec_dss_tsGetDateTimeRange","heclib/heclib_c/src/SemiPublic/ztsStorePattern.c:ztsStorePattern","heclib/heclib_c/src/Public/ztsRetrievePattern.c:ztsRetrievePattern","heclib/heclib_c/src/Internal/isTsPattern.c:isTsPattern"])

p("C96","Settings hold until they are changed",
  "A setting made with hec_dss_set_value or hec_dss_set_string holds until the same setting is made again: asked for under its name, in any letter case, it is found as it was set, whatever other settings are made in between, and before it is first set it is what the library starts with. Names that are not known are refused and change nothing.",
  "all sequences of settings, names, texts and numbers, sizes of the memory for the text","all sequences of calls",
  ["heclib/hecdss/hecdss.c:hec_dss_set_value,hec_dss_set_string","heclib/heclib_c/src/Public/zset.c:zset","heclib/heclib_c/src/Public/zquery.c:zquery"])

p("C97","Levels of messages",
  "A message is written if and only if its level is not above the level set for its group of functions: set with the name of the group, or for all groups, and in force until it is set again; groups that are not named keep their level, and so does a squeeze.",
  "all sequences of settings, groups, levels","all sequences of calls times all groups and levels",
  ["heclib/heclib_c/src/Public/zset.c:zset","heclib/heclib_c/src/Internal/zsetMessageLevel.c:zsetMessageLevel,zsetMessageGroupLevel","heclib/heclib_c/src/Internal/zmessageLevel.c:zmessageLevel","heclib/heclib_c/src/Public/zsqueeze7.c:zsqueeze7"])

p("C98","Bytes in base 64 come back",
  "b64Encode gives the text in base 64 of any bytes, with as many characters as it needs and a zero after them; different bytes have different texts; and b64Decode of the text gives the bytes again, and their number.",
  "all bytes, of any number","all inputs",
  ["heclib/heclib_c/src/Utilities/verticalDatum.c:b64EncodedLen,b64DecodedLen,b64Encode,b64Decode"])

p("C99","Values in a text of entries",
  "A value put into a text of entries (as in the user header or the supplemental text of a location) under a name is found under that name until it is replaced or removed, whatever is put in or removed under other names; a value that is there is only replaced when that is asked for; and when there is no room the text stays as it was.",
  "all sequences of putting in and removing, names, values, separators, delimiters, sizes of the memory","all sequences of calls",
  ["heclib/heclib_c/src/Utilities/verticalDatum.c:extractFromDelimitedString,insertIntoDelimitedString","heclib/heclib_c/src/Public/ztsStore.c:ztsStore"])

p("C100","The lengths of the longest parts",
  "The lengths of the longest A, B, C, D, E and F part that zmaxPart and zinquire ('maxa' to 'maxf') give for a file are enough for the pathname of every record that can be read, and each is the length of a part of some pathname the file was told of; so the columns that a sorted catalog is sorted by, which have these widths, are wide enough.",
  "all files in use: all histories of writes, deletes, undeletes, renames and sorted catalogs","all histories",
  ["heclib/heclib_c/src/Internal/zupdatePathStats.c:zupdatePathStats","heclib/heclib_c/src/SemiPublic/zmaxPart.c:zmaxPart7","heclib/heclib_c/src/Public/zinquire.c:zinquire","heclib/heclib_c/src/Internal/zcatalogInternal.c:zcatalogInternal"])

p("C101","The time of the last write to a file",
  "If the clock is never set back, the time that zgetLastWriteTimeFile gives is the time of a call made on the file (or of its creation), no record that can be read was written later, and directly after a write it is the time of the record written; a program that remembers it notices every change made at a later time: as long as the time is the same, every record is as it was. The time that zgetMyLastWriteTime gives is not before any write of this process.",
  "all files in use: all histories of writes, deletes, undeletes and renames, with any times that the clock shows","all histories and all times of the calls",
  ["heclib/heclib_c/src/Public/zgetLastWriteTimeFile.c:zgetLastWriteTimeFile","heclib/heclib_c/src/Public/zgetMyLastWriteTime.c:zgetMyLastWriteTime","heclib/heclib_c/src/Internal/zwriteNew.c:zwriteNew","heclib/heclib_c/src/Internal/zwriteExisting.c:zwriteExisting","heclib/heclib_c/src/Internal/zdeleteInternal.c:zdeleteInternal","heclib/heclib_c/src/Public/zrename.c:zrename","heclib/heclib_c/src/Internal/zcheckAccessReset.c:zcheckAccessReset"])

p("C102","Comparing two records",
  "zcompareDataSets, for two transfer structs, says that they are equal exactly when the records have the same type, headers, values and numbers of values (and, for an exact comparison, the same pathname up to letter case, version and time of the last write); it never reads outside the arrays. What was written to a file and read again compares equal to what was written, and to nothing else.",
  "all pairs of structs that hold the contents of a record; all histories of a file before the write","all contents, lengths and histories",
  ["heclib/heclib_c/src/SemiPublic/zcompareDataSets.c:zcompareDataSets","heclib/heclib_c/src/SemiPublic/zcompareDataSets.c:zcompare_ztransferStruct","heclib/heclib_c/src/SemiPublic/zcompareDataSets.c:zcompareStrings","heclib/heclib_c/src/SemiPublic/zcompareDataSets.c:zcompareIntArrays","heclib/heclib_c/src/Internal/zreadInternal.c:zreadInternal"])

p("C103","The time window of a pathname, and the current record",
  "ztsGetPathTimeWindow gives for the pathname of a record the window from the day of the D part to the end of the last day of the block, and leaves the pathname as it is but for letter case; of the pathname of a block, ztsIsCurrentTimeSeries says whether the current day is in that block.",
  "all pathnames with the name of an interval and a date from the year 100 to 9999, all days of the clock","all pathnames, intervals, dates and times of the clock",
  ["heclib/heclib_c/src/SemiPublic/ztsGetPathTimeWindow.c:ztsGetPathTimeWindow","heclib/heclib_c/src/SemiPublic/ztsIsCurrentTimeSeries.c:ztsIsCurrentTimeSeries","heclib/heclib_c/src/System/getCurrentDateTime.c:getCurrentDateTime","heclib/heclib_c/src/Public/zpathnameSetPart.c:zpathnameSetPart"])

p("C104","A number with commas",
  "longWithCommas writes the decimal digits of the number with a comma before every third digit from the right, and a sign, and returns the length; if the array is too short it returns -1 and writes nothing outside of it.",
  "all numbers but the smallest, all lengths of the array","all numbers and lengths",
  ["heclib/heclib_c/src/Utilities/longWithCommas.c:longWithCommas"])

p("C105","The advice to squeeze",
  "zsqueezeNeeded says that a file should be squeezed when much of it is dead or reclaimed, many of its records were deleted or renamed, or it has errors, and more of these never turns yes into no; of a file that has just been squeezed it says no.",
  "all files of version 7, with all numbers of records, sizes and counts","all combinations of the counts in the header of a file, and all numbers of records",
  ["heclib/heclib_c/src/Public/zsqueezeNeeded.c:zsqueezeNeeded","heclib/heclib_c/src/Internal/znewFileSize.c:znewFileSize","heclib/heclib_c/src/Public/zsqueeze7.c:zsqueeze7"])

p("C106","A catalog in a file",
  "Writing a catalog to a file with zcatalogFile, with or without a name for that file, leaves the DSS file as it is; without a name, the catalog of name.dss goes to name.dsc.",
  "all names of DSS files that zopen takes, all names of catalog files","all names",
  ["heclib/heclib_c/src/Public/zcatalogFile.c:zcatalogFile","heclib/heclib_c/src/Utilities/copyAndTrim.c:copyAndTrim","heclib/heclib_c/src/System/zfileName.c:zfileName","heclib/heclib_c/src/System/zopenFile.c:zopenFile"])

p("C107","Aliases of a record",
  "After any adding and removing of aliases of a record, zaliasNumber and zaliasList find those that were added and not removed since, the last one first, and zaliasGetPrimary leads from each of them to the record.",
  "all histories of adding and removing aliases","all histories; the aliases are a linked list in the file",
  ["heclib/heclib_c/src/Public/zaliasAdd.c:zaliasAdd","heclib/heclib_c/src/Public/zaliasRemove.c:zaliasRemove","heclib/heclib_c/src/Public/zaliasNumber.c:zaliasNumber","heclib/heclib_c/src/Public/zaliasList.c:zaliasList","heclib/heclib_c/src/Public/zaliasGetPrimary.c:zaliasGetPrimary"])

json_lines="\n".join(json.dumps(x) for x in P)+"\n"
open("properties.jsonl","w").write(json_lines)
print(len(P))
