{
 "claims": [
  {
   "property": "C01",
   "status": "proved",
   "theorems": [
    "MapEditr.C01_pos_key_pos",
    "MapEditr.C01_key_pos_key",
    "MapEditr.C01_valid_keys",
    "MapEditr.C01_no_shared_key"
   ],
   "note": ""
  },
  {
   "property": "C02",
   "status": "proved",
   "theorems": [
    "MapEditr.C02_out_of_range_refused",
    "MapEditr.C02_never_aliased"
   ],
   "note": ""
  },
  {
   "property": "C03",
   "status": "proved",
   "theorems": [
    "MapEditr.C03_from_unsorted",
    "MapEditr.C03_corner_order",
    "MapEditr.C03_valid"
   ],
   "note": ""
  },
  {
   "property": "C04",
   "status": "proved",
   "theorems": [
    "MapEditr.C04_iteration",
    "MapEditr.C04_each_once"
   ],
   "note": ""
  },
  {
   "property": "C05",
   "status": "proved",
   "theorems": [
    "MapEditr.C05_inverse_iteration",
    "MapEditr.C05_indices",
    "MapEditr.C05_outside_refused"
   ],
   "note": ""
  },
  {
   "property": "C06",
   "status": "proved",
   "theorems": [
    "MapEditr.C06_contains_block",
    "MapEditr.C06_touches_block",
    "MapEditr.C06_contained_area",
    "MapEditr.C06_contained_area_none",
    "MapEditr.C06_touching_area"
   ],
   "note": ""
  },
  {
   "property": "C07",
   "status": "proved",
   "theorems": [
    "MapEditr.C07_abs_overlap",
    "MapEditr.C07_rel_overlap"
   ],
   "note": ""
  },
  {
   "property": "C08",
   "status": "proved",
   "theorems": [
    "MapEditr.C08_volume"
   ],
   "note": ""
  },
  {
   "property": "C09",
   "status": "proved",
   "theorems": [
    "MapEditr.C09_intersection",
    "MapEditr.C09_translation"
   ],
   "note": ""
  },
  {
   "property": "C10",
   "status": "proved",
   "theorems": [
    "MapEditr.C10_no_overflow"
   ],
   "note": ""
  },
  {
   "property": "C11",
   "status": "proved",
   "theorems": [
    "MapEditr.C11_index_pos_index",
    "MapEditr.C11_pos_index_pos",
    "MapEditr.C11_injective"
   ],
   "note": ""
  },
  {
   "property": "C12",
   "status": "proved",
   "theorems": [
    "MapEditr.C12_query_exact",
    "MapEditr.C12_query_succeeds"
   ],
   "note": ""
  },
  {
   "property": "C13",
   "status": "proved",
   "theorems": [
    "MapEditr.C13_node_names",
    "MapEditr.C13_object_names",
    "MapEditr.C13_only_removes"
   ],
   "note": ""
  },
  {
   "property": "C14",
   "status": "proved",
   "theorems": [
    "MapEditr.C14_query_reads_only",
    "MapEditr.C14_query_failing"
   ],
   "note": ""
  },
  {
   "property": "C15",
   "status": "proved",
   "theorems": [
    "MapEditr.C15_save_load",
    "MapEditr.C15_save_load_wf",
    "MapEditr.C15_identical",
    "MapEditr.C15_same"
   ],
   "note": ""
  },
  {
   "property": "C16",
   "status": "proved",
   "theorems": [
    "MapEditr.C16_load_total",
    "MapEditr.C16_sizes"
   ],
   "note": ""
  },
  {
   "property": "C17",
   "status": "proved",
   "theorems": [
    "MapEditr.C17_save_ok",
    "MapEditr.C17_stable",
    "MapEditr.C17_same_bytes"
   ],
   "note": ""
  },
  {
   "property": "C18",
   "status": "proved",
   "theorems": [
    "MapEditr.C18_order_irrelevant",
    "MapEditr.C18_vars"
   ],
   "note": ""
  },
  {
   "property": "C19",
   "status": "proved",
   "theorems": [
    "MapEditr.C19_version",
    "MapEditr.C19_sections",
    "MapEditr.C19_block29",
    "MapEditr.C19_block28"
   ],
   "note": ""
  },
  {
   "property": "C20",
   "status": "proved",
   "theorems": [
    "MapEditr.C20_truncated",
    "MapEditr.C20_saved_sections"
   ],
   "note": ""
  },
  {
   "property": "C21",
   "status": "partial",
   "theorems": [
    "MapEditr.C21_false",
    "MapEditr.C21_partial",
    "MapEditr.C21_old_versions_partial"
   ],
   "note": "False in general (C21_false): strings are written with write, not write_all. Proved for encoders accepting whole buffers, and for the uncompressed parts of old versions."
  },
  {
   "property": "C22",
   "status": "partial",
   "theorems": [
    "MapEditr.C22_false",
    "MapEditr.C22_partial"
   ],
   "note": "False below block version 28 (C22_false). Proved for versions 28 and 29."
  },
  {
   "property": "C23",
   "status": "partial",
   "theorems": [
    "MapEditr.C23_false",
    "MapEditr.C23_partial"
   ],
   "note": "False when a line ends with 'EndInventory' (C23_false, an item mod:EndInventory). Proved when no line ends with that word."
  },
  {
   "property": "C24",
   "status": "proved",
   "theorems": [
    "MapEditr.C24_too_long",
    "MapEditr.C24_exact_length"
   ],
   "note": ""
  },
  {
   "property": "C25",
   "status": "proved",
   "theorems": [
    "MapEditr.C25_generated_check",
    "MapEditr.C25_unsupported"
   ],
   "note": ""
  },
  {
   "property": "C26",
   "status": "proved",
   "theorems": [
    "MapEditr.C26_names_kept",
    "MapEditr.C26_last_id_panics"
   ],
   "note": ""
  },
  {
   "property": "C27",
   "status": "proved",
   "theorems": [
    "MapEditr.C27_minimal"
   ],
   "note": ""
  },
  {
   "property": "C28",
   "status": "proved",
   "theorems": [
    "MapEditr.C28_merge",
    "MapEditr.C28_bad_boxes"
   ],
   "note": ""
  },
  {
   "property": "C29",
   "status": "proved",
   "theorems": [
    "MapEditr.C29_merge_metadata"
   ],
   "note": ""
  },
  {
   "property": "C30",
   "status": "proved",
   "theorems": [
    "MapEditr.C30_remove_shift",
    "MapEditr.C30_last_id_debug"
   ],
   "note": ""
  },
  {
   "property": "C31",
   "status": "proved",
   "theorems": [
    "MapEditr.C31_no_wrap"
   ],
   "note": ""
  },
  {
   "property": "C32",
   "status": "proved",
   "theorems": [
    "MapEditr.C32_fill",
    "MapEditr.C32_named",
    "MapEditr.C32_fill_completes",
    "MapEditr.C32_unnamed_false"
   ],
   "note": "No hypotheses on the stored blocks or the name: C32_fill for every run that completes (a node with a name that is not selected keeps it; C32_unnamed_false: one whose ID has no name may get one), C32_named: blocks fill has touched have no nameless nodes left, C32_fill_completes: when it completes."
  },
  {
   "property": "C33",
   "status": "partial",
   "theorems": [
    "MapEditr.C33_count_partial",
    "MapEditr.C33_partial",
    "MapEditr.C33_false"
   ],
   "note": "False with --invert (C33_false: a partly filled block counts the nodes inside the area). Proved without --invert; C33_count_partial says what is reported in general."
  },
  {
   "property": "C34",
   "status": "partial",
   "theorems": [
    "MapEditr.C34_absent_partial",
    "MapEditr.C34_false"
   ],
   "note": "False of the code (C34_false: stored blocks marked as not generated are filled). Proved that no missing block is created."
  },
  {
   "property": "C35",
   "status": "partial",
   "theorems": [
    "MapEditr.C35_replacenodes_partial",
    "MapEditr.C35_replacenodes_exact_partial",
    "MapEditr.C35_replacenodes_names",
    "MapEditr.C35_replacenodes_completes",
    "MapEditr.C35_last_id_false",
    "MapEditr.C35_unnamed_false"
   ],
   "note": "False in a release build when ID 65535 has a name (C35_last_id_false). Proved for every run that completes when no name is twice in a table and ID 65535 is free (release) resp. one ID is free; nodes without a name may get the new one (C35_unnamed_false); C35_replacenodes_completes: when it completes."
  },
  {
   "property": "C36",
   "status": "proved",
   "theorems": [
    "MapEditr.C36_replacenodes_count"
   ],
   "note": "count summed over readable blocks, for name tables without duplicates (C89 without)"
  },
  {
   "property": "C37",
   "status": "proved",
   "theorems": [
    "MapEditr.C37_setparam2",
    "MapEditr.C37_setparam2_count",
    "MapEditr.C37_setparam2_completes"
   ],
   "note": ""
  },
  {
   "property": "C38",
   "status": "partial",
   "theorems": [
    "MapEditr.C38_partial",
    "MapEditr.C38_false"
   ],
   "note": "False: the value is looked up under a name that is never defined (param2_val), so it never reaches the command and no run completes. Partial: every other argument of every command reaches it, for every command line clap accepts."
  },
  {
   "property": "C39",
   "status": "proved",
   "theorems": [
    "MapEditr.C39_deleteblocks",
    "MapEditr.C39_deleteblocks_completes"
   ],
   "note": ""
  },
  {
   "property": "C40",
   "status": "proved",
   "theorems": [
    "MapEditr.C40_deletemeta",
    "MapEditr.C40_deletemeta_count",
    "MapEditr.C40_deletemeta_completes"
   ],
   "note": ""
  },
  {
   "property": "C41",
   "status": "proved",
   "theorems": [
    "MapEditr.C41_setmetavar",
    "MapEditr.C41_setmetavar_count",
    "MapEditr.C41_setmetavar_completes"
   ],
   "note": ""
  },
  {
   "property": "C42",
   "status": "proved",
   "theorems": [
    "MapEditr.C42_deletetimers",
    "MapEditr.C42_deletetimers_count",
    "MapEditr.C42_deletetimers_completes"
   ],
   "note": ""
  },
  {
   "property": "C43",
   "status": "proved",
   "theorems": [
    "MapEditr.C43_deleteobjects",
    "MapEditr.C43_deleteobjects_count",
    "MapEditr.C43_deleteobjects_completes"
   ],
   "note": "Every run that completes, in both builds. An object position above 2147478647 makes a debug build panic if an area is given; a release build wraps around and keeps the object."
  },
  {
   "property": "C44",
   "status": "partial",
   "theorems": [
    "MapEditr.C44_new_table",
    "MapEditr.C44_old_table",
    "MapEditr.C44_plain_partial",
    "MapEditr.C44_false"
   ],
   "note": "False for plain item strings with a count or beginning with 'return' (C44_false). Proved for both table forms and for bare names."
  },
  {
   "property": "C45",
   "status": "partial",
   "theorems": [
    "MapEditr.C45_lines_partial",
    "MapEditr.C45_determined",
    "MapEditr.C45_any_text_partial",
    "MapEditr.C45_every_text",
    "MapEditr.C45_false"
   ],
   "note": "False for texts with blank lines, which disappear when another line is replaced (C45_false). Proved for all texts with exactly that exception."
  },
  {
   "property": "C46",
   "status": "partial",
   "theorems": [
    "MapEditr.C46_replaceininv_partial",
    "MapEditr.C46_replaceininv_count",
    "MapEditr.C46_replaceininv_completes",
    "MapEditr.C46_false"
   ],
   "note": "False when the new name ends in 'EndInventory' (C46_false: the inventory is cut short when read again). Proved for all other names; inventories are assumed to be lines as Minetest writes them."
  },
  {
   "property": "C47",
   "status": "partial",
   "theorems": [
    "MapEditr.C47_clone_builds_partial",
    "MapEditr.C47_clone_partial",
    "MapEditr.C47_clone_completes",
    "MapEditr.C47_false",
    "MapEditr.C47_failed_read_false"
   ],
   "note": "Proved for every source node outside block coordinate -1938 (nodes -31000..-30993); C47_false shows nodes there are not copied. Any run that completes and in which no statement fails (a failed read is silently treated as no block; for runs with failed reads see C83); metadata indices below 61440, in release builds node IDs at most 7280 (sums of IDs wrap otherwise; C47_clone_builds_partial: no bound if the debug build does not crash). Nodes whose ID has no name are not spoken of. C47_clone_completes: the run completes if all IDs are named and at most 7280."
  },
  {
   "property": "C48",
   "status": "proved",
   "theorems": [
    "MapEditr.C48_clone_original",
    "MapEditr.C48_clone_finishes"
   ],
   "note": "clone with any cache capacity copies from the table as it was before the command (C48_clone_original, for any run that finishes; assumptions on blocks as for C47); C48_clone_finishes shows it finishes if all IDs are named and at most 7280."
  },
  {
   "property": "C49",
   "status": "proved",
   "theorems": [
    "MapEditr.C49_overlay_all",
    "MapEditr.C49_overlay_completes"
   ],
   "note": "For every completed overlay without area and offset, the final table is characterised exactly, byte for byte; a second theorem shows it completes."
  },
  {
   "property": "C50",
   "status": "partial",
   "theorems": [
    "MapEditr.C50_overlay_builds_partial",
    "MapEditr.C50_overlay_partial",
    "MapEditr.C50_overlay_generated_partial",
    "MapEditr.C50_overlay_completes",
    "MapEditr.C50_false"
   ],
   "note": "False as stated (C50_false): the code does not check that a partly selected source block is generated. The partials give the full effect on every row, and the property itself when all readable source blocks are generated; no statement of the run fails (otherwise see C83). C50_overlay_builds_partial: no bound on IDs in release builds either, if the debug build does not crash."
  },
  {
   "property": "C51",
   "status": "partial",
   "theorems": [
    "MapEditr.C51_overlay_builds_partial",
    "MapEditr.C51_overlay_offset_partial",
    "MapEditr.C51_overlay_completes",
    "MapEditr.C51_false"
   ],
   "note": "False as stated (C51_false): nodes of blocks beyond +-1937 (x,y,z in -31000..-30993) are never copied. Proved for all others; no statement of the run fails (otherwise see C83). C51_overlay_builds_partial: no bound on IDs in release builds either, if the debug build does not crash."
  },
  {
   "property": "C52",
   "status": "proved",
   "theorems": [
    "MapEditr.C52_input_unmodified",
    "MapEditr.C52_input_content"
   ],
   "note": ""
  },
  {
   "property": "C53",
   "status": "proved",
   "theorems": [
    "MapEditr.C53_vacuum_any_outcome",
    "MapEditr.C53_vacuum"
   ],
   "note": ""
  },
  {
   "property": "C54",
   "status": "partial",
   "theorems": [
    "MapEditr.C54_edit_partial",
    "MapEditr.C54_deleteblocks_partial",
    "MapEditr.C54_clone_partial",
    "MapEditr.C54_overlay_offset_partial",
    "MapEditr.C54_overlay_partial",
    "MapEditr.C54_false",
    "MapEditr.C54_overlay_false"
   ],
   "note": "Bytes kept and skips counted for all editing commands, whatever the blocks and whichever statements fail (counts for clone and overlay only if none does). False in general: clone does not count undecodable blocks of unsupported versions (C54_false), overlay replaces undecodable blocks of the main map that are entirely selected (C54_overlay_false)."
  },
  {
   "property": "C55",
   "status": "partial",
   "theorems": [
    "MapEditr.C55_false",
    "MapEditr.C55_lost_partial",
    "MapEditr.C55_done_partial",
    "MapEditr.C55_all_or_nothing_partial"
   ],
   "note": "False in general (C55_false): after a failing read that makes SQLite undo the transaction, clone and overlay go on writing without one. Proved for every other failure, every crash point, and for all runs that end with \"Done.\"."
  },
  {
   "property": "C56",
   "status": "proved",
   "theorems": [
    "MapEditr.C56_declined"
   ],
   "note": ""
  },
  {
   "property": "C57",
   "status": "proved",
   "theorems": [
    "MapEditr.C57_refused",
    "MapEditr.C57_accepted"
   ],
   "note": ""
  },
  {
   "property": "C58",
   "status": "partial",
   "theorems": [
    "MapEditr.C58_edit_partial",
    "MapEditr.C58_replacenodes_partial",
    "MapEditr.C58_deleteblocks_partial",
    "MapEditr.C58_clone_partial",
    "MapEditr.C58_overlay_partial",
    "MapEditr.C58_overlay_offset_partial",
    "MapEditr.C58_false"
   ],
   "note": "done = total = number of selected blocks for every command except replacenodes, which does not count the blocks it cannot decode (C58_false; exact count in C58_replacenodes_partial)."
  },
  {
   "property": "C59",
   "status": "proved",
   "theorems": [
    "MapEditr.C59_cache",
    "MapEditr.C59_last_is_cached"
   ],
   "note": ""
  },
  {
   "property": "C60",
   "status": "proved",
   "theorems": [
    "MapEditr.C60_confirmed",
    "MapEditr.C60_no_deadlock",
    "MapEditr.C60_terminates",
    "MapEditr.C60_in_order",
    "MapEditr.C60_printed"
   ],
   "note": "Two-thread transition system with both channels; every interleaving, answer and failure of the user interface. Fairness means both threads are scheduled and the user answers when asked."
  },
  {
   "property": "C61",
   "status": "partial",
   "theorems": [
    "MapEditr.C61_simple_partial",
    "MapEditr.C61_copy_partial",
    "MapEditr.C61_false"
   ],
   "note": "False for clone and overlay (C61_false: a failing read is taken for a missing block). Proved for the other commands, and for clone/overlay that nothing but single-block reads can fail unnoticed."
  },
  {
   "property": "C62",
   "status": "partial",
   "theorems": [
    "MapEditr.C62_one_commit_partial",
    "MapEditr.C62_false"
   ],
   "note": "False at the API level (C62_false: begin_if_needed does not set in_transaction, so a write after a commit is lost). Proved for call sequences with one final commit."
  },
  {
   "property": "C63",
   "status": "proved",
   "theorems": [
    "MapEditr.C63_only_y",
    "MapEditr.C63_nothing_declines"
   ],
   "note": ""
  },
  {
   "property": "C64",
   "status": "proved",
   "theorems": [
    "MapEditr.C64_minutes",
    "MapEditr.C64_hours",
    "MapEditr.C64_unambiguous"
   ],
   "note": ""
  },
  {
   "property": "C65",
   "status": "proved",
   "theorems": [
    "MapEditr.C65_fill",
    "MapEditr.C65_replacenodes",
    "MapEditr.C65_deleteblocks",
    "MapEditr.C65_deletemeta",
    "MapEditr.C65_deletetimers"
   ],
   "note": "Running fill, replacenodes, deleteblocks, deletemeta or deletetimers a second time leaves every decoded block as it was; for the three deleting commands the stored rows are byte for byte the same. fill without hypotheses on blocks, replacenodes as C35."
  },
  {
   "property": "C66",
   "status": "proved",
   "theorems": [
    "MapEditr.C66_bad_columns",
    "MapEditr.C66_good_columns"
   ],
   "note": ""
  },
  {
   "property": "C67",
   "status": "proved",
   "theorems": [
    "MapEditr.C67_names"
   ],
   "note": ""
  },
  {
   "property": "C68",
   "status": "proved",
   "theorems": [
    "MapEditr.C68_positions",
    "MapEditr.C68_unique",
    "MapEditr.C68_byte",
    "MapEditr.C68_bad_refused",
    "MapEditr.C68_reaches_command"
   ],
   "note": ""
  },
  {
   "property": "C69",
   "status": "proved",
   "theorems": [
    "MapEditr.C69_loads_exactly_the_format",
    "MapEditr.C69_unambiguous"
   ],
   "note": ""
  },
  {
   "property": "C70",
   "status": "proved",
   "theorems": [
    "MapEditr.C70_arguments"
   ],
   "note": "For all command lines meeting the contract of clap (Spec/CmdLine.lean: Accepted), which is an assumption about the library; setparam2 is C38."
  },
  {
   "property": "C71",
   "status": "proved",
   "theorems": [
    "MapEditr.C71_manual",
    "MapEditr.C71_arguments"
   ],
   "note": "Complete comparison of the twelve commands with the usage lines of Manual.md."
  },
  {
   "property": "C72",
   "status": "proved",
   "theorems": [
    "MapEditr.C72_progress",
    "MapEditr.C72_history"
   ],
   "note": "Every value of the counters is recorded in the ghost field World.seen; invariant over all outcomes of all commands."
  },
  {
   "property": "C73",
   "status": "proved",
   "theorems": [
    "MapEditr.C73_close",
    "MapEditr.C73_small",
    "MapEditr.C73_unambiguous",
    "MapEditr.C73_mono"
   ],
   "note": "f32 arithmetic modelled exactly (round to nearest, ties to even, 24 bits); numerals specified apart from the printing."
  },
  {
   "property": "C74",
   "status": "proved",
   "theorems": [
    "MapEditr.C74_line",
    "MapEditr.C74_remaining",
    "MapEditr.C74_end",
    "MapEditr.C74_begin",
    "MapEditr.C74_plain",
    "MapEditr.C74_run"
   ],
   "note": "f32 and Duration arithmetic modelled; error bounds for bar, percentage and remaining time proved; with C72 no run panics here. Assumes total < 2^64 and times below 2^58 s."
  },
  {
   "property": "C75",
   "status": "proved",
   "theorems": [
    "MapEditr.C75_entry",
    "MapEditr.C75_log",
    "MapEditr.C75_prompt",
    "MapEditr.C75_keep"
   ],
   "note": "Invariant over all ticks of the loop; assumes input typed at the prompt ends with a newline."
  },
  {
   "property": "C76",
   "status": "proved",
   "theorems": [
    "MapEditr.C76_begin",
    "MapEditr.C76_end",
    "MapEditr.C76_timed",
    "MapEditr.C76_quiet",
    "MapEditr.C76_no_panic"
   ],
   "note": "Loop body for all states, events and times."
  },
  {
   "property": "C77",
   "status": "partial",
   "theorems": [
    "MapEditr.C77_clean_false",
    "MapEditr.C77_clean_partial",
    "MapEditr.C77_query"
   ],
   "note": "False: when the remaining time falls below an hour the line gets shorter and two characters of the old one stay (C77_clean_false). Proved for estimates below 3590 s, and for the querying lines."
  },
  {
   "property": "C78",
   "status": "partial",
   "theorems": [
    "MapEditr.C78_returned_partial",
    "MapEditr.C78_state",
    "MapEditr.C78_end_partial",
    "MapEditr.C78_end_false"
   ],
   "note": "False: a failing statement while editing ends the program with the cursor after the progress line (C78_end_false). Proved for every run that does not panic (C78_returned_partial), and whenever the last stage has been ended (C78_end_partial)."
  },
  {
   "property": "C79",
   "status": "proved",
   "theorems": [
    "MapEditr.C79_opened",
    "MapEditr.C79_only",
    "MapEditr.C79_missing"
   ],
   "note": "Path.join is modelled for Unix. Found is stated without the model's functions."
  },
  {
   "property": "C80",
   "status": "partial",
   "theorems": [
    "MapEditr.C80_done",
    "MapEditr.C80_last",
    "MapEditr.C80_error",
    "MapEditr.C80_both_false",
    "MapEditr.C80_both_partial",
    "MapEditr.C80_vacuum",
    "MapEditr.C80_saved"
   ],
   "note": "False for vacuum: if the statement fails the error is shown and then Done. (C80_both_false). C80_done, C80_last, C80_error hold for all commands; C80_both_partial and C80_saved for all but vacuum. C80_vacuum: vacuum is reported as completed exactly if the statement succeeded, as failed exactly if it was started and did not."
  },
  {
   "property": "C81",
   "status": "proved",
   "theorems": [
    "MapEditr.C81_warned"
   ],
   "note": "Prefix of the list of events; the trace of statements shows which runs change files."
  },
  {
   "property": "C82",
   "status": "proved",
   "theorems": [
    "MapEditr.C82_reasons",
    "MapEditr.C82_told"
   ],
   "note": "exact texts; the list of reasons is stated apart from the model"
  },
  {
   "property": "C83",
   "status": "proved",
   "theorems": [
    "MapEditr.C83_clone",
    "MapEditr.C83_overlay_offset",
    "MapEditr.C83_overlay"
   ],
   "note": "No assumption on failing statements. Reach: source blocks within \u00b11937 (see C47). Metadata indices below 61440, in release builds node IDs at most 7280."
  },
  {
   "property": "C84",
   "status": "partial",
   "theorems": [
    "MapEditr.C84_false",
    "MapEditr.C84_panic_false",
    "MapEditr.C84_zero_partial",
    "MapEditr.C84_nonzero_partial"
   ],
   "note": "False: the status is 0 after reported errors and after a panic of the compute thread (C84_false, C84_panic_false). Proved: 0 whenever the terminal works, and any other status means that the user interface failed."
  },
  {
   "property": "C85",
   "status": "proved",
   "theorems": [
    "MapEditr.C85_malformed",
    "MapEditr.C85_wellformed"
   ],
   "note": "For all command lines meeting the contract of clap (Accepted)."
  },
  {
   "property": "C86",
   "status": "proved",
   "theorems": [
    "MapEditr.C86_run",
    "MapEditr.C86_fill",
    "MapEditr.C86_fill_done"
   ],
   "note": "C86_run for all commands but vacuum and setparam2; C86_fill and C86_fill_done are the whole way for fill."
  },
  {
   "property": "C87",
   "status": "proved",
   "theorems": [
    "MapEditr.C87_fork",
    "MapEditr.C87_agree",
    "MapEditr.C87_prefix",
    "MapEditr.C87_clean",
    "MapEditr.C87_works"
   ],
   "note": "Relational lemma for every function that executes statements (Proof/Oracle.lean). With it C47, C50, C51, C54 assume only that no statement of the run itself failed (DbWorks)."
  },
  {
   "property": "C88",
   "status": "proved",
   "theorems": [
    "MapEditr.C88_machine_integers",
    "MapEditr.C88_transfer"
   ],
   "note": "Model/Machine.lean is the whole worker with checked i32/i64/u64 arithmetic, counters included; equal to the exact worker for every environment and all arguments when the keys of the maps are different keys of blocks (replaceininv: inventories of a block at most 64 MiB)."
  },
  {
   "property": "C89",
   "status": "partial",
   "theorems": [
    "MapEditr.C89_setparam2_partial",
    "MapEditr.C89_deletemeta_partial",
    "MapEditr.C89_deletetimers_partial",
    "MapEditr.C89_setmetavar_partial",
    "MapEditr.C89_replaceininv_partial",
    "MapEditr.C89_replacenodes_count_partial",
    "MapEditr.C89_setparam2_false",
    "MapEditr.C89_deletemeta_false",
    "MapEditr.C89_deletetimers_false",
    "MapEditr.C89_setmetavar_false",
    "MapEditr.C89_replacenodes_false"
   ],
   "note": "False as stated: of a name that is twice in a name table only the least ID is taken (C89_*_false, five commands). The _partial theorems say, without assumptions on names, which nodes are edited (IsFirst/AmongFirst) and how many are counted."
  },
  {
   "property": "C90",
   "status": "partial",
   "theorems": [
    "MapEditr.C90_deleteobjects",
    "MapEditr.C90_setparam2",
    "MapEditr.C90_setmetavar",
    "MapEditr.C90_replaceininv_partial",
    "MapEditr.C90_overlay",
    "MapEditr.C90_false",
    "MapEditr.C90_overlay_area"
   ],
   "note": "Proved for every pair of runs that complete: deleteobjects and overlay without an area leave every row as it is; setparam2 and setmetavar every block's contents; overlay with an area too if source nodes have names, blocks are Mild and no statement of the first run fails; replaceininv too if inventories are lines, stacks of the item do not hold the word EndInventory and the new item does not end in it. False otherwise (C90_false: a new item ending in EndInventory)."
  },
  {
   "property": "C91",
   "status": "proved",
   "theorems": [
    "MapEditr.C91_fill",
    "MapEditr.C91_clone",
    "MapEditr.C91_overlay_offset",
    "MapEditr.C91_overlay"
   ],
   "note": "Rows that differ after the run (and, for overlay without offset, are not those of the input map) represent a block with Spec.Tidy name table. fill needs no assumption about blocks."
  },
  {
   "property": "C92",
   "status": "partial",
   "theorems": [
    "MapEditr.C92_fill",
    "MapEditr.C92_setparam2",
    "MapEditr.C92_deletemeta",
    "MapEditr.C92_setmetavar",
    "MapEditr.C92_replaceininv",
    "MapEditr.C92_replacenodes",
    "MapEditr.C92_deletetimers_partial",
    "MapEditr.C92_deleteobjects_partial",
    "MapEditr.C92_deleteblocks",
    "MapEditr.C92_clone",
    "MapEditr.C92_overlay_offset",
    "MapEditr.C92_overlay_partial",
    "MapEditr.C92_timers_false",
    "MapEditr.C92_ungenerated_false",
    "MapEditr.C92_deleted_false"
   ],
   "note": "Proved for all the commands. deletetimers and deleteobjects only without area or with an inverted one: timers and objects of a partly selected block are not taken from the old map (C92_timers_false). The blocks must be marked as generated: others are changed, but not restored (C92_ungenerated_false), and deleted rows come back only if their data says generated (C92_deleted_false). The plain overlay only if it adds no rows. The overlay that restores must have no failing statement (reads would be skipped), metadata indices below 61440, and in a release build IDs up to 7280."
  },
  {
   "property": "C93",
   "status": "proved",
   "theorems": [
    "MapEditr.C93_shown",
    "MapEditr.C93_watched",
    "MapEditr.C93_count",
    "MapEditr.C93_count2",
    "MapEditr.C93_fill",
    "MapEditr.C93_replacenodes",
    "MapEditr.C93_setparam2",
    "MapEditr.C93_deletemeta",
    "MapEditr.C93_deletetimers",
    "MapEditr.C93_setmetavar",
    "MapEditr.C93_deleteobjects",
    "MapEditr.C93_replaceininv",
    "MapEditr.C93_skipped"
   ],
   "note": "Displays: spec of the terminal; Watched: the loop has received all messages of the run, at any times. The end-to-end theorems take the hypotheses of the count theorems (C33, C36, C37, C40-C43, C46, C54). Messages with a carriage return or a final line break are covered by C75 only."
  },
  {
   "property": "C94",
   "status": "proved",
   "theorems": [
    "MapEditr.C94_one_node",
    "MapEditr.C94_run",
    "MapEditr.C94_session",
    "MapEditr.C94_fine",
    "MapEditr.C94_untouched",
    "MapEditr.C94_swap",
    "MapEditr.C94_disjoint",
    "MapEditr.C94_parts"
   ],
   "note": "C94_run: one run; C94_session: any number of runs (induction over the session); C94_fine: a session can be continued; C94_untouched, C94_swap with C94_disjoint and C94_parts. Assumes that every ID has one name and every name one ID in each block (C35_unnamed_false and C89 show what happens otherwise). clone, overlay and replaceininv are not among the commands."
  },
  {
   "property": "C95",
   "status": "proved",
   "theorems": [
    "MapEditr.C95_run",
    "MapEditr.C95_session",
    "MapEditr.C95_usual",
    "MapEditr.C95_same",
    "MapEditr.C95_overlay_self",
    "MapEditr.C95_overlay_twice",
    "MapEditr.C95_overlay_halves",
    "MapEditr.C95_clone_still",
    "MapEditr.C95_untouched",
    "MapEditr.C95_undo"
   ],
   "note": "Spec/Exec gives each command's meaning on nodes (clone, overlay, deleteblocks and, through Spec/Session, the commands that change nodes one by one). One run: from C47, C49-C51, C39, C91 and C94; sessions by induction. Assumes what present-day Minetest writes (Usual) and, for clone and overlay, a working database; source nodes beyond block 1937 are not read (C47_false, C51_false), which the meaning says."
  },
  {
   "property": "C96",
   "status": "proved",
   "theorems": [
    "MapEditr.C96_run",
    "MapEditr.C96_session",
    "MapEditr.C96_usual",
    "MapEditr.C96_same",
    "MapEditr.C96_gone",
    "MapEditr.C96_back"
   ],
   "note": "All commands. Blocks generated, of version 28/29, with bounded IDs and unique names; inventories as Minetest writes them, no stack containing the word EndInventory (C46 shows what happens otherwise)."
  },
  {
   "property": "C97",
   "status": "proved",
   "theorems": [
    "MapEditr.C97_run",
    "MapEditr.C97_blocks",
    "MapEditr.C97_session",
    "MapEditr.C97_same",
    "MapEditr.C97_kept",
    "MapEditr.C97_gone",
    "MapEditr.C97_overlay_all"
   ],
   "note": "All commands, same assumptions on the map as C95 and C96."
  },
  {
   "property": "C98",
   "status": "proved",
   "theorems": [
    "MapEditr.C98_uses",
    "MapEditr.C98_once",
    "MapEditr.C98_done"
   ],
   "note": "Props/Program; combines C38, C55, C60, C70, C80, C96, C97"
  },
  {
   "property": "C99",
   "status": "proved",
   "theorems": [
    "MapEditr.C99_total",
    "MapEditr.C99_possible"
   ],
   "note": "Fair executions without failure end with \"Done.\" and the map holds what the command line means; such executions always exist."
  },
  {
   "property": "C100",
   "status": "proved",
   "theorems": [
    "MapEditr.C100_kept",
    "MapEditr.C100_next"
   ],
   "note": "Invariant of C98's uses: InPlace is kept by every command (Proof/Place); then C99."
  },
  {
   "property": "C101",
   "status": "proved",
   "theorems": [
    "MapEditr.C101_tables",
    "MapEditr.C101_uses",
    "MapEditr.C101_next"
   ],
   "note": "Theorems C101_tables (one command), C101_uses (any number of uses) and C101_next."
  },
  {
   "property": "C102",
   "status": "proved",
   "theorems": [
    "MapEditr.C102_program",
    "MapEditr.C102_total"
   ],
   "note": "program with machine integers = program with exact integers, as a system of threads; C99 for it. Different keys of blocks needed (example at C88); replaceininv: inventories of a block at most 64 MiB."
  },
  {
   "property": "C103",
   "status": "partial",
   "theorems": [
    "MapEditr.C103_deletemeta",
    "MapEditr.C103_deletetimers",
    "MapEditr.C103_deleteobjects",
    "MapEditr.C103_setmetavar",
    "MapEditr.C103_replaceininv",
    "MapEditr.C103_replacenodes_partial",
    "MapEditr.C103_setparam2_partial",
    "MapEditr.C103_fill",
    "MapEditr.C103_false"
   ],
   "note": "Proved in full for deletemeta, deletetimers, deleteobjects, setmetavar, replaceininv and fill; for replacenodes and setparam2 only blocks without the name in their name table; the full statement is false of replacenodes (C103_false)."
  },
  {
   "property": "C104",
   "status": "proved",
   "theorems": [
    "MapEditr.C104_rows",
    "MapEditr.C104_counters"
   ],
   "note": "C104_rows: bound by the rows of the maps, for all runs; C104_counters: the checked worker, with C72 and C88."
  },
  {
   "property": "C105",
   "status": "proved",
   "theorems": [
    "MapEditr.C105_statements",
    "MapEditr.C105_once",
    "MapEditr.C105_messages"
   ],
   "note": "Bounds on statements, on writes per block and on messages, for all maps and all failures of the database."
  },
  {
   "property": "C106",
   "status": "proved",
   "theorems": [
    "MapEditr.C106_deserialize",
    "MapEditr.C106_outside",
    "MapEditr.C106_memory",
    "MapEditr.C106_entity",
    "MapEditr.C106_nodes"
   ],
   "note": "A second rendering of the decoder (Model/Memory) with uninitialised buffers, machine positions, reads in pieces and a record of memory asked for is proved equal to the first, with bounds on the memory. Assumes that zlib consumes no more than its input and that outputs fit in a vector. What the compiler may do with reads of uninitialised memory (undefined behaviour of the language) is outside the model; the theorem shows that no such byte reaches a result."
  },
  {
   "property": "C107",
   "status": "partial",
   "theorems": [
    "MapEditr.C107_crash_iff_partial",
    "MapEditr.C107_ordinary_partial",
    "MapEditr.C107_false",
    "MapEditr.C107_fill_false",
    "MapEditr.C107_replacenodes_false",
    "MapEditr.C107_deleteobjects_false",
    "MapEditr.C107_copy_crash_iff_partial",
    "MapEditr.C107_copy_room_partial",
    "MapEditr.C107_copy_last_partial",
    "MapEditr.C107_clone_false",
    "MapEditr.C107_clone_half_false",
    "MapEditr.C107_overlay_false",
    "MapEditr.C107_completes_iff_partial",
    "MapEditr.C107_copy_completes_iff_partial"
   ],
   "note": "exact condition for all commands (C107_crash_iff_partial: the ten that work on one map; C107_copy_crash_iff_partial: clone and overlay); the property itself is false, with seven witnesses; C107_completes_iff_partial, C107_copy_completes_iff_partial: otherwise the run ends normally"
  },
  {
   "property": "C108",
   "status": "proved",
   "theorems": [
    "MapEditr.C108_worker",
    "MapEditr.C108_machine",
    "MapEditr.C108_program",
    "MapEditr.C108_completes",
    "MapEditr.C108_no_crash",
    "MapEditr.C108_crash",
    "MapEditr.C108_differ"
   ],
   "note": "All of it. C108_worker and C108_machine are about every starting state and assume nothing. Overflow covers u16, u64, i32 and i64; conversions with as, which never panic, are the same in both builds and part of the model. C108_differ shows a run in which the builds differ."
  },
  {
   "property": "C109",
   "status": "proved",
   "theorems": [
    "MapEditr.C109_local",
    "MapEditr.C109_local_bytes",
    "MapEditr.C109_pieces",
    "MapEditr.C109_counts",
    "MapEditr.C109_count_unique",
    "MapEditr.C109_order",
    "MapEditr.C109_completes",
    "MapEditr.C109_copy_local",
    "MapEditr.C109_copy_local_bytes"
   ],
   "note": "All of it. Both runs are supposed to complete (C109_completes and C107 say when they do). Counts are those in the message at the end; deleteblocks, clone and overlay report none. vacuum changes no row. C109_copy_local holds within the frame of C50 and C107 (CopySet): ordinary tables, confirmed, database not failing."
  },
  {
   "property": "C110",
   "status": "partial",
   "theorems": [
    "MapEditr.C110_library",
    "MapEditr.C110_stuck",
    "MapEditr.C110_get_stuck_iff",
    "MapEditr.C110_false",
    "MapEditr.C110_write_false",
    "MapEditr.C110_memory_partial"
   ],
   "note": "The comparison with the coarser model is proved for all clients (C110_library). That a failure affects one call only is false of the code: C110_false, C110_write_false; C110_get_stuck_iff says exactly when a statement is lost, C110_stuck that it stays so. C110_memory_partial: all is right while no call fails."
  },
  {
   "property": "C111",
   "status": "proved",
   "theorems": [
    "MapEditr.C111_adaptive",
    "MapEditr.C111_unread"
   ],
   "note": "All of it. C111_adaptive also gives what the database decides about undoing the transaction. C111_unread is about the compute thread with a database failing in any way."
  },
  {
   "property": "C112",
   "status": "partial",
   "theorems": [
    "MapEditr.C112_faithful",
    "MapEditr.C112_exclusive",
    "MapEditr.C112_free",
    "MapEditr.C112_acts",
    "MapEditr.C112_found",
    "MapEditr.C112_end",
    "MapEditr.C112_all",
    "MapEditr.C112_edit_partial",
    "MapEditr.C112_deleteblocks_partial",
    "MapEditr.C112_clone_partial",
    "MapEditr.C112_overlay_partial",
    "MapEditr.C112_overlay_offset_partial",
    "MapEditr.C112_possible",
    "MapEditr.C112_none_false",
    "MapEditr.C112_replacenodes_false"
   ],
   "note": "Proved for all schedules: mutual exclusion, faithful readings, no waiting for ever, the final lines show the final counters (C112_faithful, C112_exclusive, C112_free, C112_acts, C112_found, C112_end). That the last line says 100% holds for all commands but replacenodes when something is selected (C112_*_partial); false otherwise (C112_none_false, C112_replacenodes_false). vacuum shows no percentage."
  },
  {
   "property": "C113",
   "status": "proved",
   "theorems": [
    "MapEditr.C113_order",
    "MapEditr.C113_halves",
    "MapEditr.C113_halves_objects",
    "MapEditr.C113_back",
    "MapEditr.C113_on",
    "MapEditr.C113_objects_false"
   ],
   "note": "C113_order: any permutation of a session of pairwise independent commands (Apart), nodes and everything beside them. C113_halves: inside and then outside an area is everywhere; C113_halves_objects: also for deleteobjects if objects are in the blocks that keep them (C113_objects_false otherwise). C113_back, C113_on: cloning back restores the area, cloning on is cloning at once."
  },
  {
   "property": "C114",
   "status": "proved",
   "theorems": [
    "MapEditr.C114_reads",
    "MapEditr.C114_commit",
    "MapEditr.C114_quiet",
    "MapEditr.C114_input",
    "MapEditr.C114_done",
    "MapEditr.C114_self",
    "MapEditr.C114_reads_first",
    "MapEditr.C114_self_stuck",
    "MapEditr.C114_looks",
    "MapEditr.C114_possible",
    "MapEditr.C114_alone",
    "MapEditr.C114_undo_false"
   ],
   "note": "All under the hypothesis that SQLite does not undo the transaction (C114_undo_false otherwise). C114_reads: reads as if alone. C114_commit, C114_done: no lost update. C114_quiet, C114_input: nothing else changes the file. C114_self, C114_self_stuck: main map as input map; C114_reads_first gives their condition for overlay without an offset. C114_looks, C114_possible, C114_alone: such runs exist, and alone nothing is refused."
  },
  {
   "property": "C115",
   "status": "proved",
   "theorems": [
    "MapEditr.C115_looks",
    "MapEditr.C115_reads",
    "MapEditr.C115_commit",
    "MapEditr.C115_exclusive",
    "MapEditr.C115_quiet",
    "MapEditr.C115_done",
    "MapEditr.C115_two",
    "MapEditr.C115_serial",
    "MapEditr.C115_both_false",
    "MapEditr.C115_next",
    "MapEditr.C115_then",
    "MapEditr.C115_chain"
   ],
   "note": "Serialisability of any number of runs on one file, for all schedules. C115_next, C115_then, C115_chain: runs one after the other are refused nothing. Premise as in C114: SQLite does not undo transactions by itself (C55). That one of two runs at the same time comes to its end is not claimed, and false (C115_both_false)."
  },
  {
   "property": "C116",
   "status": "proved",
   "theorems": [
    "MapEditr.C116_taken",
    "MapEditr.C116_machine",
    "MapEditr.C116_query",
    "MapEditr.C116_deleteblocks",
    "MapEditr.C116_query_machine",
    "MapEditr.C116_stops",
    "MapEditr.C116_false",
    "MapEditr.C116_panics_false",
    "MapEditr.C116_corner",
    "MapEditr.C116_deletemeta_far",
    "MapEditr.C116_deletetimers_far",
    "MapEditr.C116_setmetavar_far",
    "MapEditr.C116_replaceininv_far",
    "MapEditr.C116_far_false",
    "MapEditr.C116_fill",
    "MapEditr.C116_replacenodes",
    "MapEditr.C116_setparam2",
    "MapEditr.C116_deletemeta",
    "MapEditr.C116_deletetimers",
    "MapEditr.C116_deleteobjects",
    "MapEditr.C116_setmetavar",
    "MapEditr.C116_replaceininv",
    "MapEditr.C116_fill_completes"
   ],
   "note": "C116_taken, C116_machine: the block each key is taken for, and when a debug build panics. C116_query, C116_deleteblocks, C116_query_machine, C116_stops: what follows for queries and deleteblocks. C116_fill and seven more: the editing commands; C116_fill_completes: such runs exist. C116_corner, C116_deletemeta_far and three more: when the corner of the block overflows. That rows of no block are left alone or cause no panic is not claimed, and false (C116_false, C116_panics_false, C116_far_false)."
  }
 ]
}