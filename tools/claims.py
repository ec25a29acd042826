c("C01","proved",["Hec.C01_julian_consecutive","Hec.C01_julian_order","Hec.C01_year4_violation"],"all dates of year >= 5; below year 5 the code numbers two days alike (violation theorem)")
c("C02","proved",["Hec.C02_julian_roundtrip","Hec.C02_julian_total"],"first year guess is a parameter (floating point not modelled); years >= 5")
c("C03","proved",["Hec.C03_month_rollover"])
c("C04","partial",["Hec.C04_day_of_week_partial","Hec.C04_day_of_week_violation"],"false before 31Dec1899")
c("C05","proved",["Hec.C05_cleanTime","Hec.C05_undefined_pair"],"granularities that divide a day")
c("C06","proved",["Hec.C06_compareTimes","Hec.C06_order","Hec.C06_undefined_violation"],"granularities that divide a day; the pair (0,0) encodes undefined")
c("C07","proved",["Hec.C07_increment_adds","Hec.C07_increment_compose","Hec.C07_hits_undefined"])
c("C08","proved",["Hec.C08_numberPeriods_inverse","Hec.C08_numberPeriods_counts"])
c("C09","proved",["Hec.C09_end_of_period","Hec.C09_compose","Hec.C09_month_offset_partial","Hec.C09_year_offset_partial","Hec.C09_march_violation","Hec.C09_day30_violation"],"years >= 5; beyond the statement, times with an offset are covered in part and two defects are exhibited")
c("C10","proved",["Hec.C10_numberPeriods","Hec.C10_year_violation"],"years >= 5; between other times the yearly count is wrong (violation theorem)")
c("C11","partial",["Hec.C11_offset_intraday","Hec.C11_offset_intraday_gen","Hec.C11_offset_week_partial","Hec.C11_offset_calendar_partial","Hec.C11_standard","Hec.C11_week_violation","Hec.C11_month_violation"],"false for weeks before 1900 and for days the code takes for the end of a month; yearly round trip not stated separately")
c("C12","proved",["Hec.C12_irreg_block_start","Hec.C12_reg_block_start","Hec.C12_step_forward","Hec.C12_step_back","Hec.C12_blocks_partition"])
c("C16","proved",["Hec.C16_addCentury"])
c("C17","proved",["Hec.C17_packing"])
c("C18","proved",["Hec.C18_zswap","Hec.C18_zswitchInts","Hec.C18_odd_touches_next"],"with an odd number of ints the pair switch reaches one int beyond the given number")
c("C19","proved",["Hec.C19_repeat_roundtrip","Hec.C19_no_growth"],"element size conversions on read are not modelled")
c("C20","proved",["Hec.C20_error_roundtrip","Hec.C20_not_error","Hec.C20_not_okay_violation","Hec.C20_negative_system_violation"],"defects outside the statement: STATUS_NOT_OKAY equals RECORD_NOT_FOUND (-1), negative system codes are misdecoded")
c("C34","proved",["Hec.C34_status_filter","Hec.C34_valid_excludes"])
c("C21","proved",["Hec.C21_ignores_case","Hec.C21_nonzero","Hec.C21_table_index","Hec.C21_new_file","Hec.C21_one_entry_violation"],"tables of 2 to 2^23 entries; a new file may be created with one entry, then zhash divides by zero (violation theorem)")
c("C22","proved",["Hec.C22_form_get","Hec.C22_set","Hec.C22_set_get","Hec.C22_set_missing_slash_violation","Hec.C22_get_uninitialised_violation"],"for complete pathnames (seven slashes); on others SetPart and GetPart misbehave (violation theorems)")
c("C23","partial",["Hec.C23_form","Hec.C23_clean_partial","Hec.C23_clean_violation","Hec.C23_set_partial","Hec.C23_set_read_violation","Hec.C23_set_write_violation"],"proved for Form; false for Clean (one byte overrun) and SetPart (read before the buffer, one byte overrun)")
c("C24","proved",["Hec.C24_compare","Hec.C24_equivalence"],"")
c("C36","proved",["Hec.C36_merge","Hec.C36_idempotent"],"new values with strictly increasing times; the store check only rejects descending times")
c("C37","partial",["Hec.C37_replace_partial","Hec.C37_exact","Hec.C37_window","Hec.C37_loses_violation","Hec.C37_notes_violation"],"false in general: values after the replaced range are lost when more stored values lie before the range than inside it, and their notes shift")
c("C13","proved",["Hec.C13_roundtrip","Hec.C13_distinct","Hec.C13_versions","Hec.C13_enumeration"],"")
c("C14","proved",["Hec.C14_ignores_case","Hec.C14_full_name","Hec.C14_lookup","Hec.C14_pseudo","Hec.C14_pseudo_block","Hec.C14_abbreviation_violation"],"outside the statement, an empty E part is taken for yearly data (violation theorem)")
c("C15","partial",["Hec.C15_seconds_roundtrip","Hec.C15_minutes_roundtrip","Hec.C15_mills_partial","Hec.C15_mills_close","Hec.C15_buffer","Hec.C15_mills_violation","Hec.C15_unterminated_violation","Hec.C15_uninitialised_violation"],"with milliseconds the last 4 ms of a second may be read as the next second (binary32 rounding modelled exactly)")
c("C27","partial",["Hec.C27_refines_store_partial","Hec.C27_last_write_partial","Hec.C27_lost_record_violation","Hec.C27_lost_record_before"],"every history that keeps to the conditions Allowed / Plain, with reclaiming off and no aliases; false without them: a record is lost when a shorter pathname is written after a longer one was deleted (violation theorem)")
c("C28","partial",["Hec.C28_other_records_partial","Hec.C28_overlap_violation"],"same conditions as C27; false without them: rewriting in place with more headers of odd length reaches one word into the next record (violation theorem)")
c("C29","partial",["Hec.C29_delete_undelete_partial","Hec.C29_delete_missing_partial"],"files reached by histories that keep to the conditions of C27")
c("C30","partial",["Hec.C30_well_formed_partial"],"same conditions as C27; reclaiming off")
c("C31","partial",["Hec.C31_version_partial","Hec.C31_counts_writes_partial"],"same conditions as C27; the version is a 32 bit counter")
c("C32","partial",["Hec.C32_record_count_partial","Hec.C32_undelete_violation"],"same conditions as C27; false if a record is undeleted while one of that name is there (violation theorem)")
c("C33","partial",["Hec.C33_fits_partial","Hec.C33_overflow_at_most_one","Hec.C33_writes_inside_partial","Hec.C33_overflow_violation"],"proved when at most one header section has an odd length or their number does not grow; otherwise the overflow is at most one word and does happen (violation theorem)")
c("C41","partial",["Hec.C41_other_records_partial","Hec.C41_torn_record_violation"],"single disk writes are taken to be atomic; the record being written can be left as a mixture of old and new (violation theorem)")
c("C42","proved",["Hec.C42_pack_roundtrip","Hec.C42_no_overrun"],"integer elements as words; conversions between floats and doubles, byte swapping, character notes and profiles are not modelled")
c("C38","partial",["Hec.C38_store_block_partial","Hec.C38_quality_partial","Hec.C38_windows","Hec.C38_all_missing_violation","Hec.C38_quality_dropped_violation"],"values and quality; false when a whole interior block of missing values replaces stored data (the old data stay) and for stored quality when the new data carry none (violation theorems); notes not modelled")
c("C39","partial",["Hec.C39_series_partial","Hec.C39_times","Hec.C39_weekly_violation","Hec.C39_blank_block_violation"],"every interval but weeks, from the year 100 on, values at standard times (no offset), any sequence of stores with flags 0 to 4 that does not blank a whole interior block; weekly data and blanked blocks are read back wrongly (violation theorems)")
c("C40","partial",["Hec.C40_trim","Hec.C40_times","Hec.C40_all_missing","Hec.C40_profile_violation"],"proved for every series with a value, profiles included, and for single values all missing; false for a profile that is all missing (reads outside the array); the internal time window is taken to hold the times of the series")
c("C25","partial",["Hec.C25_alloc_partial","Hec.C25_reuse","Hec.C25_header_violation","Hec.C25_expand_violation","Hec.C25_full_table_loss"],"every history of requests in which no space is given back right after a search that found nothing; false without that (the file header is used as the table) and at the caller zwriteExisting, which gives back more words than the record holds (violation theorems); only with reclamation switched on")
c("C26","partial",["Hec.C26_invisible_partial","Hec.C26_no_buffer","Hec.C26_gap_violation","Hec.C26_stale_violation","Hec.C26_odd_violation","Hec.C26_overrun_violation"],"proved without conditions for a buffer of size 0 (what the library passes) and under bAllOK for any size; false without it (violation theorems)")
c("C35","partial",["Hec.C35_exclusion_partial","Hec.C35_same_process_violation","Hec.C35_read_mode_violation","Hec.C35_nested_violation"],"every schedule of any number of processes with one handle each, in any mode but read-only; false for two handles in one process and for read-only mode set on a writable handle, and a nested operation can release the lock of a section (violation theorems); Linux locks, files of the current format")
c("C43","partial",["Hec.C43_header_grows_partial","Hec.C43_no_lost_update_partial","Hec.C43_lost_update_violation","Hec.C43_exclusive_open_violation"],"proved when all locking calls carry the flush flag; error paths without it lose another process's update, and so does opening in exclusive mode (violation theorems)")
c("C44","partial",["Hec.C44_gives_way","Hec.C44_last_slot_violation","Hec.C44_exclusive_word_stays_violation"],"proved for announcements the scan covers; the last word of the table is missed (violation theorem)")
c("C45","partial",["Hec.C45_word_roundtrip","Hec.C45_number_roundtrip","Hec.C45_usgs_roundtrip","Hec.C45_julian_roundtrip","Hec.C45_month_roundtrip","Hec.C45_number_violation","Hec.C45_century_violation","Hec.C45_short_buffer_violation"],"every full style over the stated ranges of years; numeric styles fail for years of five digits and year 0, style 5 for years before 0, and years of two digits and short buffers give other dates (violation theorems)")
c("C46","partial",["Hec.C46_series_partial","Hec.C46_dense_decade_violation","Hec.C46_granularity_violation","Hec.C46_century_window_violation"],"every block size, base date, history and window from the year 100 on, one granularity per series, times on a minute in decade and century blocks; false without these: a decade block with more values than minutes loses them at the next store, and mixed granularities truncate times (violation theorems); merge mode only, integers do not overflow")
c("C47","partial",["Hec.C47_previous_next_partial","Hec.C47_empty_window_violation","Hec.C47_empty_block_violation"],"exact description of what is returned; the value before or after is not returned when its block has no value in the window or the block of the window's end has none (violation theorems)")
c("C48","partial",["Hec.C48_catalog_partial","Hec.C48_selection_partial","Hec.C48_type_range_violation","Hec.C48_stale_type_violation","Hec.C48_refused_time_violation"],"rows, their number and the selections by pattern, time and number, for the histories of C27 and valid records; a range of types selects nothing out, a row keeps the type of the first write, and a refused write changes the time in the row (violation theorems); lists of deleted records, collections, aliases and sorting not covered")
c("C49","partial",["Hec.C49_wild_partial","Hec.C49_catalog_partial","Hec.C49_no_pattern","Hec.C49_malformed","Hec.C49_short_part_violation","Hec.C49_two_stars_violation"],"parts of at most 128 characters; a part shorter than the text after a leading star is compared with memory before the array, and the pattern with two stars misses the empty part (violation theorems)")
c("C50","partial",["Hec.C50_rename_partial","Hec.C50_missing_partial","Hec.C50_case_partial","Hec.C50_missing_violation","Hec.C50_other_block_violation","Hec.C50_in_the_way_violation","Hec.C50_truncated_violation","Hec.C50_crash_violation","Hec.C50_last_write_violation","Hec.C50_trailing_blanks","Hec.C50_missing_slashes","Hec.C50_only_blanks"],"pathnames of six parts, after every history that keeps to the conditions of C27, when the pathname the record gets is free (or one of the two given) and needs no more eight character units than the one given; false without that (violation theorems). A record under the new pathname is lost also if there is nothing to rename, and a crash in the middle loses the record (violation theorems)")
c("C51","partial",["Hec.C51_time_series_partial","Hec.C51_paired_data_partial","Hec.C51_old_header","Hec.C51_copied_old_header_partial","Hec.C51_read_outside_violation","Hec.C51_all_lost_violation","Hec.C51_paired_lost_violation","Hec.C51_profile_overflow_violation","Hec.C51_copy_loses_zone_violation","Hec.C51_copy_profile_violation","Hec.C51_paired_old_header","Hec.C51_paired_read_outside_violation"],"all strings that need at most 200 bytes in a time series and less than 398 in paired data; longer ones are lost or accessed outside the arrays, and copies of old headers lose the time zone of profiles and behind an empty type (violation theorems)")
c("C52","partial",["Hec.C52_copy_partial","Hec.C52_copy_written_partial","Hec.C52_goes_on_partial","Hec.C52_extra_record_violation","Hec.C52_lost_values_violation","Hec.C52_short_name_violation","Hec.C52_catalog_time_violation"],"files after every history that keeps to the conditions of C27, whose pathnames have six parts and whose time series headers are of the new form, and in which no word looks like the start of a record without being one; values that do look like one add or destroy records in the copy, and pathnames without six parts are changed (violation theorems); the catalog of the copy shows the time of the copying. Location records and the exchange of the files by an in-place squeeze not modelled")
c("C53","partial",["Hec.C53_text_partial","Hec.C53_text_refused_partial","Hec.C53_text_arguments","Hec.C53_other_type","Hec.C53_array_partial","Hec.C53_user_header_violation","Hec.C53_text_table_violation","Hec.C53_overlap_violation"],"files after every history that keeps to the conditions of C27; a user header of an odd number of ints comes back with blanks, a text cannot be replaced by a table, and a record rewritten in place with more odd headers is destroyed by the next one (violation theorems)")
c("C54","partial",["Hec.C54_whole_partial","Hec.C54_no_data","Hec.C54_other_type","Hec.C54_labels_violation","Hec.C54_precision_violation"],"files after every history that keeps to the conditions of C27, at most 9 digits of precision, strings within the limits of C51; a partial read that names no last curve gets no labels, and precisions of ten or more digits are read back wrongly (violation theorems); elevations and location records not modelled, conversions between float and double are a parameter")
c("C55","partial",["Hec.C55_part_partial","Hec.C55_nothing_there","Hec.C55_ranges","Hec.C55_unnoticed_violation","Hec.C55_labels_violation","Hec.C55_cut_violation"],"values: proved for every range, type and history; labels given with the values: false in general (the second label of a range becomes empty, a longer label cuts the last one; violation theorems), and the path that rewrites the record for longer labels is not modelled; version and time of last write of the record stay (violation theorem)")
c("C56","partial",["Hec.C56_location_partial","Hec.C56_kept","Hec.C56_no_content","Hec.C56_not_there","Hec.C56_delete_partial","Hec.C56_unterminated_violation","Hec.C56_long_zone_violation","Hec.C56_origin_violation","Hec.C56_other_type_violation","Hec.C56_delete_violation"],"proved for every location with a time zone of at most 72 bytes not divisible by four in number (false otherwise, see the violations) and every history; deletion for parts A and B of at most 179 bytes together (false for longer)")
c("C57","partial",["Hec.C57_text_partial","Hec.C57_array_partial","Hec.C57_text_within","Hec.C57_array_within","Hec.C57_unterminated_violation","Hec.C57_blank_end_violation","Hec.C57_utf8_violation","Hec.C57_length_violation"],"round trips for every history; texts of ASCII characters without a blank at the end (others are false, see the violations); nothing written behind the lengths: every file")
c("C58","partial",["Hec.C58_paired_partial","Hec.C58_within","Hec.C58_lengths","Hec.C58_units_violation","Hec.C58_null_violation"],"round trip for every history, all strings given and within the 398 bytes of the header (false otherwise); the rest for every file")
c("C59","partial",["Hec.C59_location_partial","Hec.C59_unterminated_violation"],"every history; time zones as in C56")
c("C60","partial",["Hec.C60_catalog_partial","Hec.C60_cut_violation"],"every history, filter and buffer with slots of 393 bytes or more; no aliases and collections")
c("C61","partial",["Hec.C61_grid_partial","Hec.C61_not_there","Hec.C61_other_type","Hec.C61_refused","Hec.C61_version_violation","Hec.C61_blank_violation","Hec.C61_type_violation"],"every grid, way of compression and history, zlib being a parameter that undoes its own compression; the version is not read back, a string with blanks at its end shifts the strings after it, and types that are not of a grid are stored and not read (violation theorems)")
c("C62","partial",["Hec.C62_grid_partial","Hec.C62_within","Hec.C62_characters_violation"],"round trip for every history, strings of ASCII characters without a blank at the end; the rest for every file")
c("C63","partial",["Hec.C63_store_partial","Hec.C63_retrieve_partial"],"every history of stores of the series and of other calls on the file; missing: weekly data, stores excluded by StoreFits (those of C39, years after 9999, headers that do not fit, longer pathnames deleted before), floats stored into doubles and back, retrieval of quality")
c("C64","partial",["Hec.C64_store_partial","Hec.C64_retrieve_partial"],"every history of stores of the series and of other calls on the file; missing: stores excluded by ItsStoreFits (those of C46, years after 9999, headers that do not fit, longer pathnames deleted before), the replacing mode, notes and profiles, previous and next values (C47 on the blocks)")
c("C65","partial",["Hec.C65_normal_form","Hec.C65_kept","Hec.C65_injective","Hec.C65_order","Hec.C65_case","Hec.C65_idempotent","Hec.C65_set","Hec.C65_pathname","Hec.C65_times_violation","Hec.C65_masked_violation","Hec.C65_long_parts_violation"],"every F part; pathnames with parts of at most 128 characters (longer ones are cut, violation theorem); the times accepted include the day 00 and 24:00:59, and an error of a tag can be reported as plain text (violation theorems)")
c("C66","partial",["Hec.C66_store_partial","Hec.C66_retrieve_partial","Hec.C66_no_interval","Hec.C66_bad_tags","Hec.C66_failed","Hec.C66_half_stored_violation","Hec.C66_quality_violation","Hec.C66_tags_violation"],"as C63, for stores of doubles from a standard time without quality, windows of two standard times less than 1,000,000 days apart with some value in them, printable pathnames; not elevations; asking for quality flags that are not there is a null pointer, and series stored under one order of tags are not found under another (violation theorems)")
c("C67","partial",["Hec.C67_store_partial","Hec.C67_retrieve_partial","Hec.C67_not_ascending","Hec.C67_bad_tags","Hec.C67_failed","Hec.C67_same_time","Hec.C67_half_stored_violation","Hec.C67_quality_violation"],"as C64, for stores of doubles, windows less than 1,000,000 days apart with some value in them, printable pathnames; not elevations, not storage flag 1; quality flags given with the values are not stored, and asking for flags that are not there is a null pointer (violation theorem)")
c("C68","partial",["Hec.C68_other_names","Hec.C68_second_name_partial","Hec.C68_interval_names","Hec.C68_lost_violation","Hec.C68_overwritten_violation"],"lookup for every pathname and history; false for a new record stored under an old name, which can never be read again (C68_lost_violation); a file in which old names were written is not covered")
c("C69","partial",["Hec.C69_block_range_partial","Hec.C69_yearly_violation","Hec.C69_offset_violation"],"regular series without quality, for every history; yearly data and series with an offset get wrong times (violations); the full set of blocks is C94; flag 2 and irregular series are not covered")
c("C70","partial",["Hec.C70_record_type","Hec.C70_last_type","Hec.C70_data_type_partial","Hec.C70_unknown_type","Hec.C70_regular_type","Hec.C70_irregular_type","Hec.C70_stale_type_violation","Hec.C70_empty_violation"],"recordType exact for every history; dataType may name the other precision of a series (C70_stale_type_violation); the E part guess is settled for names of intervals and for parts that agree with none, not for abbreviations")
c("C71","partial",["Hec.C71_squeeze_partial","Hec.C71_crash_partial","Hec.C71_empty_violation","Hec.C71_other_file_violation","Hec.C71_shared_temp_violation","Hec.C71_end_flag_violation"],"files after every history that keeps to the conditions of C52, every directory and crash point, without a word in the copy that is the end flag; with such a word the file is cut off and the rest is lost, a crash leaves the file itself empty, and a file that has the name of the temporary one is removed (violation theorems); in place only, disk errors and other processes not modelled")
c("C72","partial",["Hec.C72_reopen","Hec.C72_sessions_partial","Hec.C72_last_write_partial"],"every history that keeps to the conditions of C27 and every cut into sessions; missing: what the conditions exclude, conversion of files of older versions, and the settings of a handle (message level, unit), which are not in the file")
c("C73","partial",["Hec.C73_passed","Hec.C73_check_partial","Hec.C73_parts_partial","Hec.C73_check_written_partial","Hec.C73_undelete_violation","Hec.C73_messages_violation","Hec.C73_long_name_violation","Hec.C73_look_alike_violation","Hec.C73_short_header_violation","Hec.C73_short_header","Hec.C73_characters","Hec.C73_types"],"all histories of writes, deletes and renames that keep to the conditions of C27, records with usual headers, no word that looks like the start of a record, messages off; C73_passed is the converse for files with any words: what a passed check means; false after an undelete, for types above 1000 (only with messages on), pathnames of 392 characters, values that look like a record, and time series with a short header (violation theorems)")
c("C74","partial",["Hec.C74_regular_partial","Hec.C74_irregular_partial","Hec.C74_endless_violation","Hec.C74_spelling_violation","Hec.C74_absent_block_violation","Hec.C74_reversed_violation"],"for every history and window the number is at least that of the values that are there, and at most that of the positions of the blocks of the window; the full claim is false: absent blocks count nothing although tsRetrieve gives missing values for them, another spelling of the interval gives 0, a pathname without an interval is an endless loop, a reversed window returns an uninitialised variable (violation theorems)")
c("C75","partial",["Hec.C75_regular_partial","Hec.C75_irregular_partial","Hec.C75_series_name_violation","Hec.C75_other_record_violation"],"for every history, exact names of blocks, series all stored with the same units and type; other names of the series are not found, and a record that is no series is a success with any text (violation theorems)")
c("C76","partial",["Hec.C76_crc32_partial","Hec.C76_burst","Hec.C76_one_value","Hec.C76_equal","Hec.C76_zeros_violation","Hec.C76_double_violation","Hec.C76_third_array_violation","Hec.C76_unseen_violation","Hec.C76_third_case_violation"],"histories of writes and deletes, records whose third array is absent or not longer and not shorter than the first; every change of up to four neighbouring bytes is seen; changes of both halves of a double can cancel, records of zeros all have the check sum of a missing record, a third array is read with the length of the first (violation theorems)")
c("C77","partial",["Hec.C77_times_partial","Hec.C77_check_sums_partial","Hec.C77_row_time_partial","Hec.C77_new_record_violation","Hec.C77_same_time_violation","Hec.C77_undelete_violation","Hec.C77_rename_violation","Hec.C77_refused_violation","Hec.C77_zeros_violation"],"histories of writes and deletes none of which is refused, with a clock that goes on after the start; with check sums for pathnames of different hashes; false for new records with check sums, writes in the millisecond of the start, undeleted and renamed records, refused writes, and records of zeros (violation theorems); sorted catalogs not modelled, the time of the file is a parameter")
c("C78","partial",["Hec.C78_listed_partial","Hec.C78_undelete_all_partial","Hec.C78_restore_partial","Hec.C78_written_again_violation","Hec.C78_deleted_twice_violation","Hec.C78_place_taken_violation"],"all histories that keep to the conditions of C27; deleted records of pairwise different pathnames that were not written again; otherwise two records of one pathname come about, and a deleted record whose entry was taken by a new one is gone without notice (violation theorems)")
c("C79","partial",["Hec.C79_set_partial","Hec.C79_again_partial","Hec.C79_apart_partial","Hec.C79_large_number_violation","Hec.C79_larger_number_violation","Hec.C79_long_part_violation"],"numbers 0 to 999999 and at most 119 characters behind the sequence number; otherwise a byte behind the new pathname is written, or the number or the end of the F part is lost without notice (violation theorems)")
c("C80","partial",["Hec.C80_found_partial","Hec.C80_sequences_partial","Hec.C80_catalog_partial","Hec.C80_length_violation","Hec.C80_short_violation"],"seeds whose F part has at least nine characters and does not end with a star, parts of at most 128 characters; members whose sequences have the length of that of the seed, others are not found (violation theorem); the sorting of the list is not modelled")
c("C81","partial",["Hec.C81_members_partial","Hec.C81_no_member_violation","Hec.C81_short_violation"],"pairs of members with sequences of the same length; the second pathname need not be a member, and is read beyond its end (violation theorems)")
c("C82","partial",["Hec.C82_store_violation","Hec.C82_retrieve_violation"],"false: no file can be stored and no record is written into a file; proved for all inputs is that these calls fail and leave the DSS file and all other files as they were")
c("C83","partial",["Hec.C83_text_file_partial","Hec.C83_refused","Hec.C83_text_out","Hec.C83_other_kind","Hec.C83_zero_byte_violation","Hec.C83_not_found_violation"],"files without zero bytes, not empty, below 2^30 bytes, under the conditions of C53; with zero bytes characters are lost, and a pathname without record empties the output file and returns 0 (violation theorems for all such cases)")
c("C84","partial",["Hec.C84_name","Hec.C84_quotes_partial","Hec.C84_again","Hec.C84_spellings_partial","Hec.C84_bare_extension_violation","Hec.C84_long_violation","Hec.C84_cut_violation","Hec.C84_empty_violation"],"names of up to 1019 characters other than the bare extension; longer ones are cut without notice, an empty one makes the program read in front of it (violation theorems)")
c("C85","partial",["Hec.C85_not_harmed","Hec.C85_unchanged","Hec.C85_opened","Hec.C85_only_dss_partial","Hec.C85_version","Hec.C85_other_version","Hec.C85_created","Hec.C85_header_size_violation"],"all contents, names, permissions, access; a file that says its header has 5 to 98 words makes the program read outside of its memory (violation theorem); what a new file contains is a parameter with the properties of a DSS file; locks in C35")
c("C86","partial",["Hec.C86_same_records_partial","Hec.C86_deleted_violation","Hec.C86_parts_violation","Hec.C86_long_violation"],"every history of calls and sorted catalogs of existing records; false for the records of a file after a sorted catalog of its deleted records, for pathnames without six parts, and when the longest parts add up to more than a line of 400 characters holds (violation theorems); the sorting program is taken to sort, the time of the last write is not a condition a sorted catalog looks at")
c("C87","partial",["Hec.C87_order_partial","Hec.C87_series_order_partial","Hec.C87_date_violation","Hec.C87_F_violation","Hec.C87_interval_violation"],"A, B and C parts for every history, also with the stored list; F part, interval and date for regular series in a file whose longest F part has ten characters or more; otherwise false: the columns of the D and the F part have each other's width, and irregular series shift the columns of the records behind them (violation theorems)")
c("C88","partial",["Hec.C88_duplicate_partial","Hec.C88_missing","Hec.C88_goes_on","Hec.C88_time_violation"],"every file in use, with duplicates and copies made before; pathnames with six parts and no version 6 interval, ELEV not in the C parts of both, no time series header of the old form, the conditions of C27 on the write; version and time of last write are those of a new write (violation theorem); files without location records")
c("C89","partial",["Hec.C89_copy_partial","Hec.C88_goes_on","Hec.C89_wrong_month_violation","Hec.C89_lengths_violation"],"as C88, for records that are copied as they are: not those of elevations, and for time series the same D and E part and A, B and C parts of the same length together; otherwise the program compares the wrong places, and can store January as February (violation theorems); copies by retrieving and storing are not modelled")
c("C90","partial",["Hec.C90_position_partial","Hec.C90_minutes_partial","Hec.C90_mills_partial","Hec.C90_text_partial","Hec.C90_refused","Hec.C90_half_minutes_violation","Hec.C90_default_unit_violation","Hec.C90_long_unit_violation","Hec.C90_negative_minutes_violation","Hec.C90_negative_mills_violation"],"units of one second or of whole minutes that divide a day, minutes and milliseconds that are not negative, milliseconds up to 4; other units and negative numbers give other texts or a division by zero (violation theorems)")
c("C91","partial",["Hec.C91_described_partial","Hec.C91_missing_partial","Hec.C91_last_write_partial","Hec.C91_empty_violation"],"every file in use below 2^48 words, pathnames with six parts and no version 6 interval, records whose counts fit an int; an empty pathname is always taken for the one looked up last (violation theorem); program name and creation time are not modelled")
c("C92","partial",["Hec.C92_still_error_partial","Hec.C92_fields_partial","Hec.C92_invalid_argument_violation","Hec.C92_caller_violation","Hec.C92_type_violation","Hec.C92_small_status_violation"],"false: the identities are added to a negative number, so every caller takes severity away; proved for all codes and chains is exactly when the error is still seen, and that function, number and system status remain; an invalid argument is lost at the first caller, small statuses become positive (violation theorems for all codes and callers)")
c("C93","partial",["Hec.C93_tin_partial","Hec.C93_refused","Hec.C93_other_type_partial","Hec.C93_no_labels_violation","Hec.C93_label_end_violation","Hec.C93_label_lost_violation","Hec.C93_blank_violation"],"every history under the conditions of C27 on the write, surfaces of any size; without labels the program reads a null pointer, labels with their first zero byte in the last int of an odd number get blanks instead of what is behind it, strings with a blank at the end shift the others (violation theorems)")
c("C94","partial",["Hec.C94_first_last_partial","Hec.C94_series_range_partial","Hec.C94_pattern_violation","Hec.C94_text_violation","Hec.C94_interval_violation","Hec.C94_long_date_violation"],"every history; files whose pathnames have six parts of at most 128 characters, and whose records with the parts of the series all have dates (for the range: are blocks of it); a pattern or a text with the same parts makes the range fail, and an interval spelled in another way than the library's is not found (violation theorems); conditions of C69 for the values; irregular series only for the pathnames")
c("C95","partial",["Hec.C95_regular_partial","Hec.C95_irregular_partial","Hec.C95_range_violation","Hec.C95_times_violation","Hec.C95_quality_violation","Hec.C95_base_violation","Hec.C95_order_violation"],"every history; double-precision values without quality flags; the times of a regular pattern are not given back at all, those of an irregular one are counted from day 0 instead of the base date given, asking for quality flags reads a null pointer, and the range of a regular pattern ends one interval too late (violation theorems, the last one for all patterns and histories)")
c("C96","partial",["Hec.C96_number_partial","Hec.C96_start","Hec.C96_program","Hec.C96_datum","Hec.C96_unknown","Hec.C96_current_violation"],"all sequences of calls of zset; what copying and opening files do to the numbers of progress is not part of it; the current number is only found when the total number is positive (violation theorem)")
c("C97","partial",["Hec.C97_all","Hec.C97_group_partial","Hec.C97_others","Hec.C97_squeeze_partial","Hec.C97_squeeze_violation","Hec.C97_name_violation","Hec.C97_general_violation","Hec.C97_restore_violation"],"all sequences of calls of zset; files without a level of their own; the group of the functions that write time series cannot be named, a general level of 10 or more overrules the groups, a squeeze changes levels that are not all the same, and setting the level zquery gives lowers it (violation theorems)")
c("C98","partial",["Hec.C98_encode","Hec.C98_distinct","Hec.C98_back_partial","Hec.C98_short_violation","Hec.C98_length_violation","Hec.C98_characters_violation","Hec.C98_multiple_violation"],"all bytes; the number given by b64Decode is always too large (zeros follow the bytes), fewer than four bytes are refused, and characters that are not base 64 are read (violation theorems)")
c("C99","partial",["Hec.C99_entries_partial","Hec.C99_end_violation","Hec.C99_lost_violation","Hec.C99_empty_violation","Hec.C99_outside_violation","Hec.C99_name_violation"],"all sequences of calls with values that are not empty, names told apart from the other entries, and room enough; searching without regard to case is not modelled; without room the old value and the end of the text are lost (violation theorems)")
c("C100","partial",["Hec.C100_room_partial","Hec.C100_exact_partial","Hec.C100_order_partial","Hec.C100_not_lowered_violation"],"all histories under the conditions of C27-C33 and C50, sorted catalogs included; C100_order_partial is C87 without its condition on the widths; the numbers are not lowered when records are deleted (violation theorem); aliases are not modelled")
c("C101","partial",["Hec.C101_latest_partial","Hec.C101_written_partial","Hec.C101_notice_partial","Hec.C101_own_partial","Hec.C101_since_partial","Hec.C101_same_time_violation","Hec.C101_clock_violation","Hec.C101_own_delete_violation","Hec.C101_no_write_violation"],"all histories under the conditions of C27-C33 and C50, with a clock that is not set back; C101_since_partial is C77 with the time of the file instead of a given one; missed: changes in the millisecond that is remembered, own deletes (zgetMyLastWriteTime), and the time also moves when nothing was written (violation theorems); one process")
c("C102","partial",["Hec.C102_same_partial","Hec.C102_exact_partial","Hec.C102_written_partial","Hec.C102_null_violation","Hec.C102_logical_violation","Hec.C102_braces_violation","Hec.C102_outside_violation"],"transfer structs whose empty arrays are null pointers and whose lengths are right; pathnames without characters above z in ASCII for the exact comparison; histories as in C27-C33. Violation theorems for structs outside these conditions. The comparisons of the other struct types (time series, paired, grids, location) are not modelled")
c("C103","partial",["Hec.C103_window_partial","Hec.C103_current_partial","Hec.C103_sound_partial","Hec.C103_range_partial","Hec.C103_day_violation","Hec.C103_midnight_violation","Hec.C103_changed_violation","Hec.C103_range_violation"],"D parts that are one date (C103_range_partial: a range of two dates, in at most 19 characters each, the first without a space), full names of intervals, version 7, no number of values asked for; C103_current_partial: the D part is the first day of its block. Violation theorems: another day, midnight, the changed letter case, a long range of dates.")
c("C104","partial",["Hec.C104_fits_partial","Hec.C104_inside_partial","Hec.C104_short_violation","Hec.C104_outside_violation"],"arrays in which the text fits, and numbers that are not negative for writing inside; false for short arrays (violation theorems)")
c("C105","partial",["Hec.C105_answer","Hec.C105_waste","Hec.C105_clean","Hec.C105_monotone","Hec.C105_reason","Hec.C105_first_reason","Hec.C105_squeezed_partial","Hec.C105_again_violation","Hec.C105_expected_violation"],"waste, no waste and more waste in full; no after a squeeze for tables with ten records or fewer for each hash code in use, or made for more than a million pathnames; false for the others (violation theorems).  Quotients of doubles are compared exactly")
c("C106","partial",["Hec.C106_own_name_partial","Hec.C106_given_name_partial","Hec.C106_same_name","Hec.C106_destroys_violation","Hec.C106_capitals_violation","Hec.C106_short_name_violation"],"proved for DSS files whose full name ends in .dss in small letters, and for given names that are not the full name of the DSS file, without links; false for other names of DSS files: the DSS file is emptied (violation theorems)")
c("C107","partial",["Hec.C107_history_partial"],"the linked list of the aliases of one record; missing: how the entry of a pathname is found and made, and other operations (writing, renaming, deleting the record) between")
