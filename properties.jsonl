{"id": "C01", "title": "Block keys and block positions convert losslessly", "statement": "For every block position whose three coordinates lie in -2048..2047, turning it into a database key and back yields the same position; for every key that any such position has, turning it into a position and back yields the same key. So no two blocks ever share a key.", "quantifier": "all block positions in the 4096^3 cube and all their keys", "why_tests_cant": "the domain has 2^36 elements; tests probe 16 of them", "anchors": ["src/spatial/vec3.rs: Vec3::from_block_key, Vec3::to_block_key"]}
{"id": "C02", "title": "Out-of-range block positions are refused, never aliased", "statement": "Asking for the key of a block position with any coordinate outside -2048..2047 stops the program instead of returning some other block's key.", "quantifier": "all integer positions", "why_tests_cant": "infinite set of bad positions", "anchors": ["src/spatial/vec3.rs: Vec3::to_block_key"]}
{"id": "C03", "title": "Area built from two corners is exactly the box between them", "statement": "For any two corners in any order, the area contains a node iff each coordinate is between the two corner coordinates (inclusive); swapping corners gives the same area; the area is always valid (never empty).", "quantifier": "all pairs of corners and all nodes", "why_tests_cant": "unbounded integers", "anchors": ["src/spatial/area.rs: Area::from_unsorted, Area::contains, Area::is_valid", "src/cmd_line.rs: parse_cmd_line_args"]}
{"id": "C04", "title": "Iterating an area visits every node once, in z-y-x order", "statement": "Iterating any valid area yields exactly the contained positions, each exactly once, x fastest then y then z, and then ends.", "quantifier": "all valid areas", "why_tests_cant": "unbounded sizes", "anchors": ["src/spatial/area.rs: AreaIterator::next"]}
{"id": "C05", "title": "Inverse iteration visits exactly the complement", "statement": "For every box inside a mapblock, the inverse iterator yields exactly the node indices 0..4095 outside the box, ascending, each once, then ends.", "quantifier": "all 2.5 million sub-boxes of a block and all indices", "why_tests_cant": "tests cover 1000 boxes built from 10 intervals", "anchors": ["src/spatial/mod.rs: InverseBlockIterator"]}
{"id": "C06", "title": "Block containment and touching mean what they say about nodes", "statement": "A block is reported contained iff all its 4096 nodes are in the area, and touched iff at least one is; the computed contained/touching block areas contain exactly those blocks (the contained one is absent iff no block is contained).", "quantifier": "all areas, all block positions", "why_tests_cant": "unbounded integers", "anchors": ["src/spatial/area.rs: contains_block, touches_block, to_contained_block_area, to_touching_block_area"]}
{"id": "C07", "title": "Block overlap is the exact intersection", "statement": "The absolute overlap of an area with a block contains exactly the nodes in both and is absent iff there are none; the relative overlap is the same set shifted to block-local coordinates and lies within 0..15.", "quantifier": "all areas, block positions and nodes", "why_tests_cant": "unbounded integers", "anchors": ["src/spatial/area.rs: abs_block_overlap, rel_block_overlap"]}
{"id": "C08", "title": "Volume is the number of nodes", "statement": "The volume of a valid area equals the number of positions iterating it yields.", "quantifier": "all valid areas", "why_tests_cant": "unbounded sizes", "anchors": ["src/spatial/area.rs: Area::volume"]}
{"id": "C09", "title": "Area intersection and translation are exact", "statement": "The intersection of two areas contains exactly the common nodes and is absent iff there are none; a translated area contains p+offset iff the area contains p.", "quantifier": "all areas, offsets, nodes", "why_tests_cant": "unbounded integers", "anchors": ["src/spatial/area.rs: intersection, Add<Vec3>, Sub<Vec3>"]}
{"id": "C10", "title": "No coordinate arithmetic overflows for accepted arguments", "statement": "For arguments accepted by argument checking and blocks with valid keys, none of the coordinate computations (block corners, overlaps, touching areas, offset areas, volumes) overflows its 32/64-bit type, so debug and release builds compute the same, mathematically exact, values.", "quantifier": "all accepted areas/offsets, all valid block positions, both build modes", "why_tests_cant": "boundary combinations are too many; wraparound is silent in release builds", "anchors": ["src/spatial/area.rs", "src/spatial/vec3.rs", "src/instance.rs: verify_args"]}
{"id": "C11", "title": "In-block node indices and coordinates correspond", "statement": "The 12-bit node index x+16y+256z and the block-local coordinates determine each other: decoding an index and re-encoding gives it back, for all 4096 nodes, and distinct in-block positions have distinct indices.", "quantifier": "all node indices and local positions", "why_tests_cant": "tests check six literals", "anchors": ["src/spatial/vec3.rs: from_u16_key"]}
{"id": "C12", "title": "Selecting blocks by area picks exactly the right blocks", "statement": "The block query returns exactly the stored blocks that: touch the area (partial, not inverted); have some node outside it (partial, inverted); lie fully inside it (not partial, not inverted); lie fully outside it (not partial, inverted). With no area it returns all stored blocks.", "quantifier": "all databases, areas, and flag combinations", "why_tests_cant": "quantifies over every area alignment and every database", "anchors": ["src/utils.rs: query_keys"]}
{"id": "C13", "title": "Name pre-filter never skips a block that contains the name", "statement": "If a stored block decodes and its name table (or a LuaEntity object name) contains one of the searched names, the text search over raw block data keeps the block, for every format version.", "quantifier": "all block byte strings and search names", "why_tests_cant": "quantifies over every byte string that decodes", "anchors": ["src/utils.rs: query_keys", "src/map_block/map_block.rs: MapBlock::deserialize"]}
{"id": "C14", "title": "Querying returns each key at most once and changes nothing", "statement": "The query result has no repeated key, only keys stored in the database, in row order, and the database is unchanged.", "quantifier": "all databases and arguments", "why_tests_cant": "every database", "anchors": ["src/utils.rs: query_keys", "src/map_database.rs: iter_rows"]}
{"id": "C15", "title": "Saving then loading a mapblock gives the same mapblock", "statement": "For every block version 25..29 and every block that was loaded from data, serializing and deserializing gives back an identical block, with two exceptions only: metadata entries with no variables and no inventory are dropped, and private marks are not stored below version 28 (see C22).", "quantifier": "all blocks of all supported versions, all lossless compressors that accept every write in full (see C21), all hash-map iteration orders", "why_tests_cant": "infinite set of blocks; tests use three files", "anchors": ["src/map_block/map_block.rs: serialize, deserialize", "src/map_block/*.rs"]}
{"id": "C16", "title": "Decoding any bytes never crashes and yields only well-formed blocks", "statement": "For every byte string, decoding either reports an error or returns a block with exactly 4096 nodes/param1/param2 entries, version 25..29, and all field sizes within what can be re-saved. It never panics.", "quantifier": "all byte strings", "why_tests_cant": "infinite adversarial inputs", "anchors": ["src/map_block/map_block.rs: MapBlock::deserialize"]}
{"id": "C17", "title": "Re-saving a loaded block never fails and is stable", "statement": "Every block that loads can be saved without a panic, and loading the saved data and saving again yields a block equal to the first re-load (saving reaches a fixed point after one step).", "quantifier": "all byte strings that decode", "why_tests_cant": "infinite inputs", "anchors": ["src/map_block/map_block.rs: serialize", "src/map_block/metadata.rs: serialize"]}
{"id": "C18", "title": "Saved metadata does not depend on hash-map order", "statement": "Whatever order the in-memory hash map iterates metadata variables in, loading the saved block gives the same variables, values and private flags.", "quantifier": "all blocks, all iteration orders", "why_tests_cant": "iteration order is random per process", "anchors": ["src/map_block/metadata.rs: NodeMetadata::serialize/deserialize"]}
{"id": "C19", "title": "Unsupported data is rejected with the right error", "statement": "Data with version byte outside 25..29 is rejected as an invalid block version; node id width or param width other than 2, metadata version above 2, object/name-table version other than 0, and timer length other than 10 are rejected; no such data ever yields a block.", "quantifier": "all byte strings", "why_tests_cant": "infinite inputs", "anchors": ["src/map_block/map_block.rs", "src/map_block/metadata.rs", "src/map_block/name_id_map.rs", "src/map_block/static_object.rs", "src/map_block/node_timer.rs"]}
{"id": "C20", "title": "Truncated sections are rejected", "statement": "Every strict prefix of a saved name table, object list, timer list, metadata list, or length-prefixed string is rejected, never read as a shorter valid one.", "quantifier": "all lists/strings and all cut points", "why_tests_cant": "every cut point of every value", "anchors": ["src/map_block/mod.rs: read_string16, read_string32, try_read_n", "src/map_block/*.rs"]}
{"id": "C21", "title": "Saved strings are written in full", "statement": "Metadata names and values, node names and object data are written completely to the block, whatever amount of data the compressor accepts per call.", "quantifier": "all strings and all short-write behaviours of the output stream", "why_tests_cant": "depends on compressor buffer state", "anchors": ["src/map_block/mod.rs: write_string16, write_string32"]}
{"id": "C22", "title": "Private metadata stays private", "statement": "Saving a block keeps the private mark of every metadata variable, including when metadata is copied between blocks of different versions.", "quantifier": "all blocks and versions", "why_tests_cant": "all version pairs and metadata", "anchors": ["src/map_block/metadata.rs: serialize", "src/block_utils.rs: merge_metadata"]}
{"id": "C23", "title": "Inventory boundaries are found correctly", "statement": "A node inventory followed by any other data is read back exactly, for every inventory in Minetest's format.", "quantifier": "all inventories and all following bytes", "why_tests_cant": "every item metadata string", "anchors": ["src/map_block/metadata.rs: NodeMetadata::deserialize, END_STR"]}
{"id": "C24", "title": "Over-long strings are never silently truncated", "statement": "Writing a string longer than its length field can express stops the program; it never writes a wrong length.", "quantifier": "all strings", "why_tests_cant": "all lengths", "anchors": ["src/map_block/mod.rs: write_string16, write_string32"]}
{"id": "C25", "title": "The generated check agrees with the decoded block", "statement": "For data that decodes to a block, the quick check says 'valid and generated' iff the block's not-generated flag bit is clear.", "quantifier": "all byte strings that decode", "why_tests_cant": "infinite inputs", "anchors": ["src/map_block/map_block.rs: is_valid_generated"]}
{"id": "C26", "title": "Cleaning the name table keeps every node's name", "statement": "Removing duplicate and unused IDs leaves the name of every one of the 4096 nodes unchanged, for every block whose node IDs are all in its name table.", "quantifier": "all blocks with mapped IDs, both build modes", "why_tests_cant": "all name tables, gaps and duplicates", "anchors": ["src/block_utils.rs: clean_name_id_map"]}
{"id": "C27", "title": "Cleaning leaves a minimal name table", "statement": "After cleaning, IDs are 0..n-1 without gaps, all names are distinct, and every ID is used by some node.", "quantifier": "all blocks with mapped IDs", "why_tests_cant": "all name tables", "anchors": ["src/block_utils.rs: clean_name_id_map"]}
{"id": "C28", "title": "Merging blocks copies exactly the selected nodes", "statement": "Copying an area from one block to another sets name, param1 and param2 of every destination node to those of the corresponding source node, and leaves name, param1 and param2 of every node outside the destination area unchanged.", "quantifier": "all block pairs with mapped IDs within the ID limit, all matching sub-areas", "why_tests_cant": "all pairs and areas", "anchors": ["src/block_utils.rs: merge_blocks"]}
{"id": "C29", "title": "Merging metadata copies exactly the selected area", "statement": "After copying, each destination-area node has exactly the metadata of its source node (or none), and metadata elsewhere is unchanged.", "quantifier": "all metadata lists and matching sub-areas", "why_tests_cant": "all lists and areas", "anchors": ["src/block_utils.rs: merge_metadata"]}
{"id": "C30", "title": "Removing an ID shifts the name table consistently", "statement": "Removing an ID from a name table drops exactly that entry and moves each higher ID down by one, keeping names; for every table including ones with gaps.", "quantifier": "all name tables and IDs", "why_tests_cant": "all tables", "anchors": ["src/map_block/name_id_map.rs: remove_shift"]}
{"id": "C31", "title": "Node-ID arithmetic does not wrap for Minetest blocks", "statement": "When all IDs in the involved name tables are at most 7280 (Minetest writes fewer than 4096), merging up to eight source blocks into one never overflows 16-bit IDs; debug and release builds agree.", "quantifier": "all such blocks, all merge sequences of up to eight sources", "why_tests_cant": "worst case needs adversarial tables", "anchors": ["src/block_utils.rs: merge_blocks", "src/commands/clone.rs", "src/commands/overlay.rs"]}
{"id": "C32", "title": "fill sets exactly the selected nodes", "statement": "After fill completes, every node of every decodable stored block that is in the area (outside it, with --invert) has the new name, every other node keeps its name, and param1/param2/metadata/objects/timers are unchanged everywhere.", "quantifier": "all maps, areas, invert flags, node names", "why_tests_cant": "all alignments of areas to blocks and all name tables", "anchors": ["src/commands/fill.rs"]}
{"id": "C33", "title": "fill reports the number of nodes it filled", "statement": "The count reported by fill equals the number of nodes whose value was set.", "quantifier": "all maps, areas and invert flags", "why_tests_cant": "all alignments", "anchors": ["src/commands/fill.rs: fill"]}
{"id": "C34", "title": "fill leaves mapblocks that are not generated alone", "statement": "Per the manual, mapblocks that are not yet generated are not affected by fill.", "quantifier": "all maps", "why_tests_cant": "all stored blocks and flags", "anchors": ["src/commands/fill.rs", "Manual.md: fill"]}
{"id": "C35", "title": "replacenodes replaces exactly the selected nodes", "statement": "After replacenodes, every selected node with the old name has the new name and every other node keeps its name; param1, param2, metadata, objects, timers are unchanged.", "quantifier": "all maps (with name tables free of duplicates), areas, invert flags, name pairs", "why_tests_cant": "all name-table shapes and area alignments", "anchors": ["src/commands/replace_nodes.rs"]}
{"id": "C36", "title": "replacenodes reports the number of replaced nodes", "statement": "The reported count equals the number of nodes whose ID was replaced.", "quantifier": "all maps whose name tables have no name twice, areas, flags (other tables: C89)", "why_tests_cant": "all alignments", "anchors": ["src/commands/replace_nodes.rs: do_replace"]}
{"id": "C37", "title": "setparam2 sets exactly the selected param2 values", "statement": "After the command, every selected node (area/invert, and node name if given) has the new param2 and every other node keeps its param2; names, param1, metadata etc. are unchanged; the reported count is the number of selected nodes.", "quantifier": "all maps whose name tables have no name twice (only needed if a node is named), areas, flags, names, values (other tables: C89)", "why_tests_cant": "all alignments", "anchors": ["src/commands/set_param2.rs"]}
{"id": "C38", "title": "setparam2 can be used from the command line", "statement": "A param2 value given on the command line reaches the command.", "quantifier": "all command lines for setparam2", "why_tests_cant": "every value", "anchors": ["src/cmd_line.rs: parse_cmd_line_args, to_cmd_line_args", "src/commands/set_param2.rs: set_param2"]}
{"id": "C39", "title": "deleteblocks deletes exactly the blocks fully inside/outside", "statement": "After deleteblocks, a block is gone iff all its nodes are inside the area (with --invert: none are); every other block's stored bytes are unchanged.", "quantifier": "all maps, areas, flags", "why_tests_cant": "all alignments", "anchors": ["src/commands/delete_blocks.rs"]}
{"id": "C40", "title": "deletemeta deletes exactly the selected metadata", "statement": "After deletemeta, metadata of every selected node (area/invert, node name if given) is gone and all other node metadata is unchanged; nodes, params, objects, timers are unchanged; the count is the number of removed entries.", "quantifier": "all maps whose name tables have no name twice (only needed if a node is named), areas, flags, names (other tables: C89)", "why_tests_cant": "all alignments", "anchors": ["src/commands/delete_meta.rs"]}
{"id": "C41", "title": "setmetavar edits only the named variable where present", "statement": "After setmetavar, each selected node that had the variable has the new value with the same private mark (or lacks it, with --delete); all other variables, inventories and nodes are unchanged; nodes lacking it are untouched.", "quantifier": "all maps whose name tables have no name twice (only needed if a node is named), keys, values, node lists, areas (other tables: C89)", "why_tests_cant": "all combinations", "anchors": ["src/commands/set_meta_var.rs"]}
{"id": "C42", "title": "deletetimers removes exactly the selected timers, keeping order", "statement": "After deletetimers the timers of each block are exactly the non-selected ones in their original order.", "quantifier": "all maps whose name tables have no name twice (only needed if a node is named), areas, flags, names (other tables: C89)", "why_tests_cant": "all lists", "anchors": ["src/commands/delete_timers.rs"]}
{"id": "C43", "title": "deleteobjects removes exactly the selected objects, keeping order", "statement": "After deleteobjects each decodable queried block holds exactly the objects not selected by position, object name and item name, in original order; objects that cannot be interpreted are kept when a name is required.", "quantifier": "all maps, areas, names, item lists", "why_tests_cant": "all lists", "anchors": ["src/commands/delete_objects.rs"]}
{"id": "C44", "title": "Dropped-item names are extracted correctly", "statement": "For item entity data in either serialization (plain name, old and new Lua table) the extracted name is the item string up to the first space or quote.", "quantifier": "all item names, counts, and surrounding data not containing the marker", "why_tests_cant": "all strings", "anchors": ["src/commands/delete_objects.rs: get_item_name"]}
{"id": "C45", "title": "replaceininv rewrites exactly the matching item lines", "statement": "For every inventory text: each line 'Item <item> ...' gets the new item name keeping count, wear and metadata (metadata dropped with --deletemeta, whole stack emptied with --delete); every other line is unchanged; the count is the number of matching lines; with no match the inventory is byte-identical.", "quantifier": "all inventories, items, options", "why_tests_cant": "all texts", "anchors": ["src/commands/replace_in_inv.rs: do_replace"]}
{"id": "C46", "title": "replaceininv touches only selected inventories", "statement": "After replaceininv, inventories of selected nodes are rewritten line-wise and everything else in the map is unchanged.", "quantifier": "all maps whose name tables have no name twice (only needed if a node is named) and arguments (other tables: C89)", "why_tests_cant": "all combinations", "anchors": ["src/commands/replace_in_inv.rs: replace_in_inv"]}
{"id": "C47", "title": "clone copies the area exactly", "statement": "After clone, each destination node (area+offset) in a generated, decodable stored block whose source node lies in a generated, decodable stored block has the original name, param1, param2 and metadata of its source node; every other node is unchanged.", "quantifier": "all maps (IDs within limit), areas, offsets", "why_tests_cant": "all alignments, 8-way block splits, eviction patterns", "anchors": ["src/commands/clone.rs"]}
{"id": "C48", "title": "clone with overlapping source and destination reads only original data", "statement": "Even when source and destination overlap, and whatever the cache evicts, everything copied is the pre-command content.", "quantifier": "all maps, areas, offsets (any sign combination), any cache capacity", "why_tests_cant": "depends on processing order and cache eviction", "anchors": ["src/commands/clone.rs: clone, get_cached", "src/utils.rs: CacheMap"]}
{"id": "C49", "title": "overlay without area copies every generated source block verbatim", "statement": "After overlay with no area and no offset, every generated source block's bytes are in the main map and every other main-map block is unchanged.", "quantifier": "all pairs of maps", "why_tests_cant": "all maps", "anchors": ["src/commands/overlay.rs: overlay_no_offset"]}
{"id": "C50", "title": "overlay with an area copies exactly inside/outside the area", "statement": "After overlay with an area (optionally inverted): blocks entirely selected are copied verbatim; in partly selected blocks that exist, generated and decodable, in both maps, selected nodes take the source's name/params/metadata and the others keep the main map's; all other blocks are unchanged.", "quantifier": "all pairs of maps, areas, invert", "why_tests_cant": "all alignments", "anchors": ["src/commands/overlay.rs: overlay_no_offset"]}
{"id": "C51", "title": "overlay with an offset copies exactly the shifted nodes", "statement": "After overlay with offset, each main-map node in a generated decodable block inside the shifted area (everywhere if no area) whose source node is in a generated decodable source block takes the source's name/params/metadata; all others are unchanged.", "quantifier": "all pairs of maps, areas, offsets", "why_tests_cant": "all alignments and caches", "anchors": ["src/commands/overlay.rs: overlay_with_offset"]}
{"id": "C52", "title": "overlay never modifies the input map", "statement": "No statement that changes data is ever executed on the input map, in any run, including runs that fail.", "quantifier": "all maps, arguments, failure schedules", "why_tests_cant": "all runs", "anchors": ["src/commands/overlay.rs", "src/instance.rs: compute_thread"]}
{"id": "C53", "title": "vacuum changes no map data", "statement": "vacuum leaves every stored block unchanged.", "quantifier": "all maps, failure schedules", "why_tests_cant": "all maps", "anchors": ["src/commands/vacuum.rs", "src/map_database.rs: vacuum"]}
{"id": "C54", "title": "Unselected and unreadable blocks keep their exact bytes", "statement": "Commands never rewrite the bytes of blocks outside the selection or of blocks that cannot be decoded; every selected block that cannot be decoded is counted as skipped.", "quantifier": "all maps and block-editing commands", "why_tests_cant": "all maps", "anchors": ["src/commands/*.rs", "src/utils.rs: query_keys"]}
{"id": "C55", "title": "A run is all-or-nothing", "statement": "Whenever the program stops (crash, panic, SQL error at any statement, or normal end), the map file holds either its original content or the complete result, never a mixture.", "quantifier": "all commands, arguments, maps, crash points, SQL failure schedules", "why_tests_cant": "every crash point", "anchors": ["src/map_database.rs", "src/instance.rs: compute_thread"]}
{"id": "C56", "title": "Declining the prompt changes nothing", "statement": "If the user does not answer y, the command body is not run, and no data-changing statement is executed.", "quantifier": "all commands, maps, answers", "why_tests_cant": "all answers and schedules", "anchors": ["src/instance.rs: compute_thread, get_confirmation", "src/cmd_line.rs: get_confirmation"]}
{"id": "C57", "title": "Invalid arguments are refused before the map is opened", "statement": "Inverting without area, corners beyond +-31000, offsets beyond +-62000, malformed names and each command's own argument errors end the run before any SQL statement is executed.", "quantifier": "all argument combinations", "why_tests_cant": "all combinations", "anchors": ["src/instance.rs: verify_args, compute_thread", "src/commands/*.rs: verify_args"]}
{"id": "C58", "title": "Progress reaches the total", "statement": "When a block-processing command ends normally, the number of blocks done equals the number of blocks selected.", "quantifier": "all maps and commands", "why_tests_cant": "all maps", "anchors": ["src/commands/*.rs", "src/instance.rs: StatusServer"]}
{"id": "C59", "title": "The block cache is bounded and never wrong", "statement": "For every sequence of insertions, the cache holds at most max(capacity,1) entries, and a hit returns the latest value inserted for the key.", "quantifier": "all operation sequences and capacities", "why_tests_cant": "all histories", "anchors": ["src/utils.rs: CacheMap"]}
{"id": "C60", "title": "The prompt protocol never deadlocks and never runs unconfirmed", "statement": "In every interleaving of the worker and UI threads: the command body starts only after the user answered yes or confirmation was disabled; neither side waits forever; every log message is printed once, in order, before the UI exits.", "quantifier": "all interleavings, message sequences, user answers, worker panics", "why_tests_cant": "schedules", "anchors": ["src/instance.rs: StatusServer, StatusClient, spawn_compute_thread", "src/cmd_line.rs: run_cmd_line"]}
{"id": "C61", "title": "Database read errors are not mistaken for missing blocks", "statement": "A run that finishes with 'Done' has processed every readable block: a failing read never silently turns into a skipped block.", "quantifier": "all SQL failure schedules", "why_tests_cant": "all failure points", "anchors": ["src/commands/clone.rs: get_cached", "src/commands/overlay.rs: get_cached"]}
{"id": "C62", "title": "Writes are never left uncommitted by the database layer", "statement": "For every sequence of database API calls followed by commit, all writes are durable.", "quantifier": "all API call sequences", "why_tests_cant": "all histories", "anchors": ["src/map_database.rs: begin_if_needed, commit_if_needed"]}
{"id": "C63", "title": "Only an explicit yes confirms", "statement": "The prompt confirms iff the typed line, ignoring surrounding white space and letter case, is exactly 'y'; end of input declines.", "quantifier": "all input lines", "why_tests_cant": "all strings", "anchors": ["src/cmd_line.rs: get_confirmation"]}
{"id": "C64", "title": "Durations print as [h:]mm:ss and are unambiguous", "statement": "The printed duration has minutes and seconds 00..59 two digits each, determines the number of seconds, and shows hours iff at least 3600 s.", "quantifier": "all durations", "why_tests_cant": "all numbers", "anchors": ["src/utils.rs: fmt_duration"]}
{"id": "C65", "title": "Commands are idempotent where documented effects are", "statement": "Running fill, replacenodes, deleteblocks, deletemeta, deletetimers a second time with the same arguments changes nothing further.", "quantifier": "all maps and arguments", "why_tests_cant": "all maps", "anchors": ["src/commands/*.rs"]}
{"id": "C66", "title": "Only map databases are accepted", "statement": "The program proceeds only if the blocks table's first column is 'pos INT' primary key and second column is 'data BLOB' non-key; otherwise it stops before changing anything.", "quantifier": "all table schemas", "why_tests_cant": "all schemas", "anchors": ["src/map_database.rs: verify_database"]}
{"id": "C67", "title": "Name validation accepts exactly modname:itemname, air and ignore", "statement": "A name is accepted iff it is 'air', 'ignore', or has the form m:i with m over [a-z0-9_] and i over [A-Za-z0-9_].", "quantifier": "all strings", "why_tests_cant": "all strings", "anchors": ["src/instance.rs: is_valid_name"]}
{"id": "C68", "title": "Coordinates on the command line parse exactly", "statement": "Three values are accepted as a position iff each is a decimal integer in 32-bit range, and the position has exactly these values; otherwise the run ends with an error and nothing happens.", "quantifier": "all argument strings", "why_tests_cant": "all strings", "anchors": ["src/cmd_line.rs: arg_to_pos"]}
{"id": "C69", "title": "The decoder accepts exactly the documented block format", "statement": "Loading succeeds on a byte string exactly when the bytes represent a block in the documented format (independent grammar), and then yields the one block they represent.", "quantifier": "all byte strings, all blocks, all lossless compressors", "why_tests_cant": "infinite set of byte strings in both directions", "anchors": ["src/map_block/map_block.rs: MapBlock::deserialize", "src/map_block/*.rs"]}
{"id": "C70", "title": "Every command has the arguments it needs", "statement": "A command line that the argument parser accepts gives every command the arguments it unwraps, so no run panics for a missing argument.", "quantifier": "all accepted command lines of all commands but setparam2", "why_tests_cant": "combinations of optional and required arguments of every command", "anchors": ["src/cmd_line.rs: to_cmd_line_args, parse_cmd_line_args", "src/commands/*.rs: get_command"]}
{"id": "C71", "title": "The command line is that of the manual", "statement": "The commands are those of the manual, and each takes exactly the arguments of its usage line.", "quantifier": "all commands", "why_tests_cant": "tests sample commands and options", "anchors": ["src/cmd_line.rs: to_cmd_line_args", "src/commands/*.rs: get_command", "Manual.md"]}
{"id": "C72", "title": "Progress counters make sense at all times", "statement": "At every moment of every run, including runs that fail or are refused, there are no more blocks done or failed than blocks in total; none of the three counts ever goes down; the total stays once editing has begun.", "quantifier": "all arguments, maps, failures and moments of a run", "why_tests_cant": "the user interface reads the counters at arbitrary times, between any two steps of any command", "anchors": ["src/instance.rs: StatusServer", "src/utils.rs: query_keys", "src/commands/*.rs", "src/cmd_line.rs: run_cmd_line"]}
{"id": "C73", "title": "Abbreviated numbers are close to the true ones", "statement": "Every number in a log message, abbreviated as in 12.3k, stands for a value within 0.51 % of the true number; numbers below 1000 are exact; a larger number is never shown as a smaller one.", "quantifier": "all 64-bit numbers (all natural numbers)", "why_tests_cant": "the computation uses f32 arithmetic with rounding at several places; the repository tests ten numbers", "anchors": ["src/utils.rs: fmt_big_num"]}
{"id": "C74", "title": "The progress line is right and never panics", "statement": "For every pair of counters a run can have, printing the progress line does not panic; the bar, the percentage, the elapsed and the remaining time are those of the counters and times, up to stated rounding; at the end it shows 100.0 % and no time remaining.", "quantifier": "all counters done <= total < 2^64, all times below 9 billion years", "why_tests_cant": "Duration::from_secs_f32 panics for negative and huge values; f32 rounding could produce them", "anchors": ["src/cmd_line.rs: print_editing_status"]}
{"id": "C75", "title": "Messages begin on a line of their own", "statement": "Whatever was printed before, a log message or the prompt begins at the start of a line, after at most one line break; all of a message is printed, with further lines indented; nothing printed before is lost.", "quantifier": "all sequences of events, times and user input", "why_tests_cant": "depends on the interleaving of progress lines and messages", "anchors": ["src/cmd_line.rs: run_cmd_line", "src/cmd_line.rs: print_log"]}
{"id": "C76", "title": "Progress is shown when it should be", "statement": "The progress line is printed at the beginning and at the end of each stage, in between whenever half a second has passed, and never outside the stages; none of this panics.", "quantifier": "all states of the user interface, events and times", "why_tests_cant": "depends on times", "anchors": ["src/cmd_line.rs: run_cmd_line"]}
{"id": "C77", "title": "A progress line is seen as it was printed", "statement": "Progress lines are printed over one another; what is seen on the terminal is the last one, without remains of those before.", "quantifier": "all sequences of counters and times within a stage", "why_tests_cant": "the length of a line depends on counters and times", "anchors": ["src/cmd_line.rs: print_editing_status", "src/cmd_line.rs: run_cmd_line"]}
{"id": "C78", "title": "The program leaves the cursor at the start of a line", "statement": "When the compute thread has gone and all its events are handled, the cursor is at the start of a line.", "quantifier": "all runs and times", "why_tests_cant": "depends on the point of failure", "anchors": ["src/cmd_line.rs: run_cmd_line"]}
{"id": "C79", "title": "The map opened is the one the path stands for", "statement": "The path of the map (and that of the input map) stands for the file itself, or else for map.sqlite in that directory. That map is edited (or copied from); no other file has any influence; if there is no such file the run is refused before any statement is executed.", "quantifier": "all paths, file systems, arguments and runs", "why_tests_cant": "all file systems and paths", "anchors": ["src/instance.rs: open_map", "src/instance.rs: compute_thread"]}
{"id": "C80", "title": "The outcome is reported truthfully", "statement": "\"Done.\" is the last message of exactly those runs that went through, and everything is committed then; an error returned is the last message shown; a run never shows both an error and \"Done.\".", "quantifier": "all runs, arguments, maps and failures of statements", "why_tests_cant": "all points of failure", "anchors": ["src/instance.rs: compute_thread", "src/instance.rs: spawn_compute_thread", "src/commands/vacuum.rs"]}
{"id": "C81", "title": "The warnings come before anything is done", "statement": "In every run that executes a statement that may change a file, begins a stage or asks a question, the first messages are the general warning (if confirmation is wanted), the warning that all metadata will be deleted (for deletemeta without area and node), and the question (if confirmation is wanted), in this order.", "quantifier": "all runs, arguments, maps and failures", "why_tests_cant": "all arguments and points of failure", "anchors": ["src/instance.rs: compute_thread", "src/commands/delete_meta.rs: verify_args"]}
{"id": "C82", "title": "A refusal names its reason", "statement": "A run whose arguments are refused prints exactly one message: the text of the first thing that is wrong, in the order in which the program checks, quoting the offending value; and the arguments are refused exactly if one of the listed reasons applies.", "quantifier": "all parsed arguments, all environments", "why_tests_cant": "infinitely many combinations of wrong arguments", "anchors": ["src/instance.rs: verify_args", "src/commands/*.rs: verify_args", "src/spatial/vec3.rs: fmt"]}
{"id": "C83", "title": "A failing read never corrupts a copy", "statement": "If clone or overlay completes, whatever database statements failed on the way, every node of a readable block is either exactly what the copy should have put there or exactly what it was before; blocks outside the destination are untouched.", "quantifier": "all maps of well-formed blocks, areas, offsets, and all patterns of failing database statements", "why_tests_cant": "any subset of the statements of a run may fail", "anchors": ["src/commands/clone.rs: get_cached, clone", "src/commands/overlay.rs: overlay_no_offset, overlay_with_offset, get_cached"]}
{"id": "C84", "title": "The exit status tells failure from success", "statement": "If the process ends with status 0, the command was carried out: no error was reported and no thread panicked; if the command was carried out, the status is 0.", "quantifier": "all command lines, environments, interleavings", "why_tests_cant": "every way to fail", "anchors": ["src/cmd_line.rs: run_cmd_line", "src/main.rs: main"]}
{"id": "C85", "title": "Malformed positions are named and stop the program", "statement": "If the values of p1, p2 or offset are not three 32-bit decimal integers, the program prints exactly one message, naming the first such argument, and ends without starting the compute thread; otherwise the thread is started with the parsed arguments.", "quantifier": "all command lines accepted by the argument parser", "why_tests_cant": "all strings", "anchors": ["src/cmd_line.rs: parse_cmd_line_args, arg_to_pos, run_cmd_line"]}
{"id": "C86", "title": "What is typed is what is done", "statement": "If the program ends after printing Done., the user has confirmed if asked, all typed arguments reached the command, and the command completed with exactly the printed messages; for fill, the nodes of the box between the typed corners in the saved map are the typed node and all else is unchanged; and with a working database and terminal, every fair execution ends this way with status 0.", "quantifier": "all command lines, maps, interleavings of the two threads", "why_tests_cant": "combines parsing, both threads, the database and the command", "anchors": ["src/cmd_line.rs: run_cmd_line, parse_cmd_line_args", "src/instance.rs: compute_thread, spawn_compute_thread", "src/commands/fill.rs: fill"]}
{"id": "C87", "title": "A run depends on the database only through the statements it executes", "statement": "Two runs with the same arguments and files but different failing statements (or different ones that make SQLite undo the transaction) are identical in result, files, messages and executed statements, or do exactly the same up to the first statement that does not do the same in both. In particular a run in which every statement succeeded is the run with a database that never fails.", "quantifier": "all commands, arguments, maps, and pairs of failure patterns", "why_tests_cant": "pairs of runs with arbitrary failure patterns", "anchors": ["src/map_database.rs", "src/instance.rs: compute_thread", "src/commands/*.rs"]}
{"id": "C88", "title": "Machine integers never matter in a run", "statement": "A whole run computing with the program's machine integers (i32, i64 and u64 for coordinates, block keys, indices, volumes and counters; panic on overflow in a debug build, wrap-around in a release build) is identical to the run computing with exact integers - same result or panic, messages, executed statements and contents of both databases - for every command and all arguments, accepted or refused, provided the keys in the maps are different and belong to blocks (and, for replaceininv, the inventories of a block hold at most 64 MiB).", "quantifier": "all commands, arguments, environments (both builds, every pattern of failing statements), and maps with keys of blocks", "why_tests_cant": "an overflow needs extreme coordinates, offsets or keys, and a wrong intermediate value may show only in a few nodes of one block; no sample of coordinates excludes it", "anchors": ["src/spatial/*.rs", "src/utils.rs: query_keys", "src/block_utils.rs", "src/commands/*.rs", "src/instance.rs: verify_args, compute_thread"]}
{"id": "C89", "title": "A node name selects all nodes with that name", "statement": "Commands given a node name edit every selected node with that name, also if the name is twice in a block's name table.", "quantifier": "all maps, commands with a node name, areas, flags", "why_tests_cant": "name tables with duplicates are rare and every table would have to be tried", "anchors": ["src/map_block/name_id_map.rs: get_id", "src/commands/replace_nodes.rs", "src/commands/set_param2.rs", "src/commands/delete_meta.rs", "src/commands/delete_timers.rs", "src/commands/set_meta_var.rs", "src/commands/replace_in_inv.rs"]}
{"id": "C90", "title": "Further commands are idempotent", "statement": "Running deleteobjects, setparam2, setmetavar, replaceininv, or overlay without offset, a second time with the same arguments changes nothing further, also if the second run happens in another environment (build, order of statements).", "quantifier": "all maps, arguments and environments for which both runs complete", "why_tests_cant": "an edit could produce something it would edit again (an item line of the old name, a shortened tail that shortens further); every map and argument would have to be tried", "anchors": ["src/commands/delete_objects.rs", "src/commands/set_param2.rs", "src/commands/set_meta_var.rs", "src/commands/replace_in_inv.rs", "src/commands/overlay.rs"]}
{"id": "C91", "title": "Changed blocks get a name table in order", "statement": "Every block that fill, clone or overlay changes and does not copy whole has, when read again, a name table with the IDs 0, 1, 2, ..., each name once, no unused ID, and an entry for every node (unless the table is empty), whichever database statements fail meanwhile.", "quantifier": "all maps, arguments, builds and patterns of failing statements; for clone and overlay, metadata indices below 61440 and, in a release build, block IDs up to 7280", "why_tests_cant": "IDs must be renumbered consistently for every combination of two name tables and node arrays; a mistake shows only for particular tables", "anchors": ["src/block_utils.rs: clean_name_id_map", "src/block_utils.rs: merge_blocks", "src/commands/fill.rs", "src/commands/clone.rs", "src/commands/overlay.rs"]}
{"id": "C92", "title": "Overlaying the old map undoes a change", "statement": "If a command has changed a map, and then the map as it was before is laid over the result with overlay and the same area, the result has the contents it had at first: the same rows, each byte for byte or with the same nodes, metadata, objects and timers.", "quantifier": "all maps whose blocks are generated, all arguments and builds; fill, setparam2, replacenodes, deletemeta, setmetavar, replaceininv, deletetimers, deleteobjects, deleteblocks, clone and overlay", "why_tests_cant": "two commands must agree, for every area and block, on which nodes are selected, and nothing the first one changes may lie outside what the second one copies", "anchors": ["src/commands/overlay.rs", "src/commands/fill.rs", "src/commands/clone.rs", "src/block_utils.rs: merge_blocks", "src/block_utils.rs: merge_metadata"]}
{"id": "C93", "title": "The user reads what was counted", "statement": "At the end of every run, all messages it sent are on the terminal in order, each from the beginning of a line, with their whole text; each number in them is shown by a numeral that reads as a number within 0.51 % of the true one, and exactly it below 1000. In particular, after a completed run of fill (without invert), replacenodes, setparam2, deletemeta, deletetimers, setmetavar, deleteobjects and replaceininv there is a line with the number of nodes, entries or objects changed, and a line with the number of skipped blocks.", "quantifier": "all runs, maps, times, timeouts and counters met by the loop, and all typed lines", "why_tests_cant": "depends on the interleaving of messages, timeouts and progress lines, and on all counts", "anchors": ["src/cmd_line.rs: print_log, run_cmd_line", "src/utils.rs: fmt_big_num", "src/commands/*.rs: log_info"]}
{"id": "C94", "title": "Commands are functions on nodes; sessions compose", "statement": "Looked at as its nodes (name, parameters, metadata and timers at each position), a map after a run of fill, replacenodes, setparam2, deletemeta, deletetimers, setmetavar, deleteobjects, deleteblocks or vacuum is the map before with the same function applied to each selected node by itself; only deleteblocks removes nodes, and no node is new. Hence after any sequence of such runs each node is what the functions, one after the other, make of it; nodes never selected are untouched; and neighbouring commands that select different nodes, or change different parts of a node without changing names, can be swapped.", "quantifier": "all maps whose blocks name every ID once (IDs up to 65534 minus the number of runs), all sequences of runs with any arguments, builds, hash orders and failing reads", "why_tests_cant": "quantifies over sequences of runs of any length, and each run rewrites the numbering of nodes that the next one relies on", "anchors": ["src/commands/fill.rs", "src/commands/replace_nodes.rs", "src/commands/set_param2.rs", "src/commands/delete_meta.rs", "src/commands/delete_timers.rs", "src/commands/set_meta_var.rs", "src/commands/delete_blocks.rs", "src/commands/delete_objects.rs", "src/map_block/map_block.rs: serialize, deserialize"]}
{"id": "C95", "title": "Every command has a meaning as a function on maps of nodes", "statement": "Seen as a partial function from positions to nodes (name, parameters, metadata, timers), a map after a completed run of any command but replaceininv is a fixed function of the map before and, for overlay, of the input map: clone and shifted overlay move selected nodes where there is a node before, overlay replaces or adds wholly selected blocks and mixes the others, deleteblocks removes wholly selected blocks, all others change nodes one by one. Hence the nodes after any sequence of such runs are the composition of these functions; two maps with the same nodes, however stored, end with the same nodes; overlaying a map on itself or cloning in place changes no node; overlaying twice is as good as once; overlaying inside and then outside of an area overlays everything; overlaying the old map undoes a change.", "quantifier": "all maps whose blocks are generated, of version 28 or 29, name every ID once and have IDs up to 7281 minus the number of runs; all input maps like that in which all blocks can be read; all sequences of runs with any arguments; a database that works for clone and overlay", "why_tests_cant": "quantifies over sequences of runs of any length, on arbitrary maps and input maps, and equates programs that store nodes in different ways", "anchors": ["src/commands/clone.rs", "src/commands/overlay.rs", "src/commands/delete_blocks.rs", "src/commands/fill.rs", "src/commands/replace_nodes.rs", "src/block_utils.rs: merge_blocks", "src/utils.rs: CacheMap"]}
{"id": "C96", "title": "Every command, replaceininv included, is a function on maps of nodes", "statement": "If inventories are as Minetest writes them, replaceininv too has a meaning as a function on nodes: in each selected node of the given kinds, every stack of the item gets the new name, keeps its count, wear and (unless asked to delete them) its own data, and no other line changes. So any session of whatever commands is the composition of the functions of its commands, the map stays of the form they need, and maps with the same nodes have the same nodes afterwards. After replaceininv no stack of the old item is left in what was selected; replacing an item by another that was nowhere before and then back again changes no node.", "quantifier": "all maps whose blocks are generated, of version 28 or 29, name every ID once, have IDs up to 7281 minus the number of runs, and inventories in which no stack contains the word EndInventory; all sequences of runs of all commands with any arguments that do not introduce that word", "why_tests_cant": "quantifies over inventories of any length and sequences of runs of any length, and equates the streaming rewrite of the text with a function on its lines", "anchors": ["src/commands/replace_in_inv.rs", "src/commands/clone.rs", "src/commands/overlay.rs", "src/map_block/metadata.rs"]}
{"id": "C97", "title": "Every command as a function on what is beside the nodes", "statement": "Beside its nodes, each block has objects, version, flags, lighting and timestamp. After a completed run of any command these are a fixed function of those before and of those of the input map: deleteobjects removes the selected objects of blocks with selected nodes, deleteblocks removes wholly selected blocks, overlay takes them from the source for wholly selected blocks, and for partly selected ones only with invert; clone, shifted overlay and all others change none. Together with C96 the whole contents of a map after any session are the composition of such functions, so two maps with the same contents, however stored, end up the same; without overlay no session changes the numbers of a block, makes a block, or makes or moves an object.", "quantifier": "as C96: all maps whose blocks are generated, of version 28 or 29, with unique names, bounded IDs and inventories as Minetest writes them; all sequences of runs of all commands", "why_tests_cant": "quantifies over sequences of runs of any length on arbitrary maps and equates differently stored maps", "anchors": ["src/commands/delete_objects.rs", "src/commands/overlay.rs", "src/commands/clone.rs", "src/commands/delete_blocks.rs", "src/block_utils.rs: merge_blocks"]}
{"id": "C98", "title": "The whole program as a function of the command lines and the contents of the map", "statement": "The program is started any number of times on a map, with command lines that clap accepts, and each time it may end in any way: arguments refused, confirmation declined, a statement failed, a panic, the terminal gone, or the process killed after any number of statements, under any interleaving of its threads. Then the contents of the map, nodes and all else, are the composition of what the typed command lines mean, of those uses that took effect; each use takes effect wholly or not at all, and every use that ended with \"Done.\" did. setparam2 never takes effect (C38).", "quantifier": "all sequences of command lines of all commands, all interleavings and all points at which the process can be killed; maps as in C96; for clone and overlay no statement fails (otherwise C47, C54 and C55 are false)", "why_tests_cant": "quantifies over sequences of command lines, schedules, points of interruption and arbitrary maps", "anchors": ["src/cmd_line.rs: run_cmd_line, to_inst_args", "src/instance.rs: compute_thread, spawn_compute_thread", "src/map_database.rs", "src/commands/mod.rs: get_commands"]}
{"id": "C99", "title": "On an ordinary map the program comes to its end and does what the command line means", "statement": "The program is started with a command line that clap accepts and that is not refused, on a map as Minetest writes it; the database works, so does the terminal, and the user does not decline. Then, however its threads are interleaved, the program comes to its end with exit status 0 and \"Done.\", it asked for confirmation exactly if -y was not given, all of its statements have been executed, and the contents of the map are what the command line means (C98). No command panics on such a map.", "quantifier": "all fair interleavings, all accepted command lines of all commands but setparam2 (C38), all maps with blocks as in C96 whose metadata and timers belong to nodes of the block and whose objects are near the map", "why_tests_cant": "quantifies over schedules, command lines and arbitrary maps; termination without panic for every input", "anchors": ["src/cmd_line.rs: run_cmd_line", "src/instance.rs: compute_thread, spawn_compute_thread", "src/commands/*.rs"]}
{"id": "C100", "title": "A map stays usable, however the program is used on it", "statement": "Start from a map as Minetest writes it and use the program any number of times, with accepted command lines, each use ending in any way (refused, declined, failed, panicked, killed). The map then still meets what C99 asks of a map: every block can be read as before, its names are unique and cover its nodes, metadata and timers belong to nodes of the block, inventories are lines ending with EndInventory, objects are near the map. So the next use, if nothing fails, comes to its end with \"Done.\" and does what its command line means.", "quantifier": "all sequences of uses as in C98, all fair interleavings of the last one; up to 3185 uses when node IDs start below 4096 (every use may add one ID)", "why_tests_cant": "an invariant over sequences of uses, schedules and points of interruption", "anchors": ["src/commands/*.rs", "src/map_block/*.rs", "src/instance.rs: compute_thread"]}
{"id": "C101", "title": "However long a map is used", "statement": "If the name tables of all blocks are as Minetest writes them (IDs 0, 1, 2, ... without gaps, no name twice, every ID used by a node, every node named), then every command leaves them so; so a block never has more than 4096 names, and what C98 and C100 say holds for any number of uses: the contents are what the command lines mean, of those uses that happened, and the next use comes to its end.", "quantifier": "all sequences of uses as in C98, of any length; all fair interleavings of the last use; maps laid over (overlay) meet the same conditions", "why_tests_cant": "an invariant over unbounded sequences of uses, with all schedules and points of interruption", "anchors": ["src/commands/replace_nodes.rs", "src/map_block/name_id_map.rs", "src/block_utils.rs", "src/commands/*.rs"]}
{"id": "C102", "title": "The whole program with machine integers", "statement": "With the integer types of the source (i16/i32/i64/u8/u16/u64/usize, panicking on overflow in debug builds and wrapping in release builds) in all operations on coordinates, indices, keys, volumes and counters, the whole program from the command line to the threads is the same system as with exact integers, if the keys of the maps are different and belong to blocks (and, for replaceininv, the inventories of a block hold at most 64 MiB); so on an ordinary map every fair execution of it ends with Done and with the contents the command line means.", "quantifier": "all command lines, environments, maps with keys of blocks, debug and release builds, all interleavings", "why_tests_cant": "equality of two programs over all inputs and schedules", "anchors": ["src/instance.rs:322-384", "src/cmd_line.rs:263-270", "src/spatial/*.rs", "src/commands/*.rs"]}
{"id": "C103", "title": "Blocks with nothing to do keep their bytes", "statement": "A completed deletemeta, deletetimers, deleteobjects, setmetavar or replaceininv leaves the stored bytes of every readable block unchanged in which there is nothing to delete, set or replace (no such metadata, timer, object, variable or stack selected); fill those of blocks without selected positions; replacenodes and setparam2 those of blocks without a selected node of the name.", "quantifier": "all environments, argument sets, maps", "why_tests_cant": "all blocks and areas; byte-identity also for inventories of any form", "anchors": ["src/commands/delete_meta.rs:29-67", "src/commands/delete_timers.rs:19-57", "src/commands/delete_objects.rs:115-139", "src/commands/set_meta_var.rs:38-80", "src/commands/replace_in_inv.rs:79-120", "src/commands/replace_nodes.rs:107-124", "src/commands/set_param2.rs:63-100", "src/commands/fill.rs:40-68"]}
{"id": "C104", "title": "Counters do not overflow", "statement": "With the 64-bit counters of the source (usize and u64 on a 64-bit target; an increment at the largest value panics in a debug build and starts over in a release build), the progress shown is sensible at all times (no more blocks done or failed than in total, nothing ever goes down, the total stays while editing), no counter ever exceeds the number of rows of the larger map, and none ever exceeds 2^36.", "quantifier": "all environments, argument sets and maps with different keys of blocks (replaceininv: inventories of at most 64 MiB in a block), both builds", "why_tests_cant": "counters near the limits of their type and all intermediate states", "anchors": ["src/instance.rs:135-146", "src/utils.rs: query_keys", "src/commands/*.rs"]}
{"id": "C105", "title": "What a run costs", "statement": "With at most n rows in each map, a run of clone or overlay executes at most 10n + 11 SQL statements and a run of any other command at most 2n + 11 (opening files included), whatever the rows hold and whichever statements fail. No run writes or deletes the same block twice, and it writes only blocks of one map: those of the map edited or those of the second map. No run sends more than twelve messages to the terminal.", "quantifier": "all environments (with any failures of the database), argument sets and maps; for the blocks written, maps with different keys", "why_tests_cant": "a bound on all runs over maps of any size and all patterns of failure", "anchors": ["src/instance.rs: compute_thread", "src/commands/*.rs", "src/map_database.rs", "src/utils.rs: query_keys"]}
{"id": "C106", "title": "Memory does not matter to the decoder", "statement": "Loading a block gives the same result in debug and release builds whatever the uninitialised memory handed out by vec_with_len (the program's only unsafe code) holds, in whatever pieces the decompressors give out their data, and whatever they give out before they fail; that result is the one of the plain model. It never panics: cursor positions never pass the end of the slice, so the subtraction in try_read_n, the slicing in the metadata parser and the additions of set_position never go wrong. The buffers asked for are at most 24576 bytes more than the block and what was decompressed, and the capacities at most 4160 + 16 times that, also for corrupt blocks. The same independence holds for entity data and for the buffer used in saving nodes.", "quantifier": "all byte strings shorter than 2^63, all contents of memory, all sizes of reads, all decompressors that consume no more than they are given, both builds", "why_tests_cant": "tests see one content of fresh memory and one size of reads, and cannot try all corrupt lengths", "anchors": ["src/map_block/mod.rs: vec_with_len, try_read_n", "src/map_block/node_data.rs", "src/map_block/metadata.rs", "src/map_block/static_object.rs", "src/map_block/node_timer.rs", "src/map_block/map_block.rs: deserialize"]}
{"id": "C107", "title": "No content of a map makes the program crash", "statement": "For a command with accepted arguments and a working database, the compute thread does not panic, whatever the blocks contain. (False: it panics exactly if some readable block is stuck: for deletemeta, setmetavar, replaceininv with a node name in the block's name table, metadata whose number is 4096 or more and whose lower twelve bits are those of a selected node; the same of timers for deletetimers; for fill on a part of a block, an empty name table, ID 65535 (or 65534 if the new name is not there) in it, or a node to be kept with an ID beyond it; in debug builds an object with a coordinate above 2147478647 for deleteobjects with an area, and ID 65535 in the way for replacenodes. deleteblocks, setparam2 and vacuum never panic. clone and overlay panic exactly if some block they change in part is stuck: raising the IDs of the blocks it takes nodes from, in z-y-x order, beyond those it has needs more than 16 bits (debug builds), or afterwards there is ID 65535 or a node with an ID beyond all names. No command panics on blocks as the game writes them with at most 7281 names.)", "quantifier": "all environments with a working database and lawful codec, all argument sets, all maps with valid distinct keys", "why_tests_cant": "an exact condition on all contents of all maps", "anchors": ["src/commands/*.rs", "src/block_utils.rs", "src/instance.rs: compute_thread"]}
{"id": "C108", "title": "Debug and release builds do the same unless an integer overflows", "statement": "A debug build (overflow checks on) and a release build (overflow checks off) of the program, given the same arguments, map and database, end in the same state with the same result, unless the worker of the debug build panics because an integer overflowed; then the statements it executed, the messages it sent and the counter values it showed are the first of those of the release build. In particular a run that ends normally in a debug build ends normally in a release build with the same map and the same messages, and whatever panics a release build panics a debug build. The same holds of both threads together, under every schedule.", "quantifier": "all environments (also with failing databases and unlawful codecs), all argument sets, all starting states, all schedules and user answers", "why_tests_cant": "compares two builds on all inputs; a test runs one build on some inputs", "anchors": ["Cargo.toml", "src/block_utils.rs", "src/map_block/name_id_map.rs", "src/spatial/*.rs", "src/commands/*.rs", "src/instance.rs: compute_thread"]}
{"id": "C109", "title": "A map may be done in pieces", "statement": "What a command that works on one map makes of a row depends on that row alone: not on the other rows, on the order of the rows, on the blocks decoded before, or on failing statements. So a map split in two and done piece by piece ends up as when done at once (up to the order of variables in node metadata, and byte for byte if the hash maps are gone through in the same order), the counts of both pieces add up to the count of the whole, and the whole can be done exactly if both pieces can. What clone and overlay make of a row depends on that row and on the rows of the blocks that its nodes come from, before the command.", "quantifier": "all maps and ways of splitting them, all argument sets, all environments with the same codec and build, all databases failing or not as long as the command completes", "why_tests_cant": "compares the runs over all pairs of maps sharing a row; a block treated wrongly only after certain other blocks is found by no test that lacks that sequence", "anchors": ["src/commands/*.rs", "src/instance.rs: compute_thread", "src/utils.rs: query_keys", "src/block_utils.rs", "src/commands/clone.rs: get_cached", "src/commands/overlay.rs: get_cached"]}
{"id": "C110", "title": "A map database used one library call at a time", "statement": "Whatever calls of the SQLite library fail (prepare, bind, next, read, reset, execute), someone who uses a MapDatabase gets, call by call, answers that they could also get from a database whose statements succeed or fail as a whole, and leaves the map in the same state. A library call that fails makes one call of a MapDatabase function fail and no later one; while none fails, reads, writes and deletions are those of a memory.", "quantifier": "all sets of failing library calls, all databases, all adaptive sequences of calls of the functions of MapDatabase, of any length", "why_tests_cant": "SQLite calls hardly ever fail in tests, and the effect of a failing one shows only in later calls", "anchors": ["src/map_database.rs"]}
{"id": "C111", "title": "Failures may depend on what was done before", "statement": "A database that decides whether a statement fails only when the statement comes, by anything that was done before, can do nothing to a run that a database with failures fixed in advance cannot do: for every such database there are failures by number under which the run is one with that database. In particular there are runs in which all reads of a map fail after the first one that fails (C110). A run of clone, or of overlay with an offset, in which no block of the main map can be read writes and deletes nothing and counts no block as failed.", "quantifier": "all deciding functions of everything executed so far, all environments, argument sets and maps", "why_tests_cant": "quantifies over all reactive databases", "anchors": ["src/map_database.rs", "src/commands/clone.rs: get_cached", "src/commands/overlay.rs: overlay_with_offset"]}
{"id": "C112", "title": "The lock around the counters, and the last line of each stage", "statement": "Whatever the order in which the two threads run, they never hold the lock of the progress counters at the same time, the user interface never reads the counters half changed, each value it reads is the one the counters have at some time no earlier than the sending of the events received before, and neither thread waits for the lock for more than three steps of the other. Hence, for every command but vacuum, when everything has been received the line that ends the query shows the total number of blocks, and the line that ends the editing shows the final counters: one hundred percent whenever every selected block is done and there is one.", "quantifier": "all interleavings of the steps of both threads, all times and timeouts, all environments, argument sets, maps and failures", "why_tests_cant": "a data race or a stale reading shows only under particular schedules", "anchors": ["src/instance.rs: StatusServer", "src/instance.rs: StatusClient::get_status", "src/cmd_line.rs: run_cmd_line", "src/utils.rs: query_keys"]}
{"id": "C113", "title": "The order of commands, and copying back and on", "statement": "If no node is changed by two commands of a session and none of them changes what another copies, the commands may be given in any order: nodes, objects and block data of the map are the same in the end. A command that changes nodes one by one, given for an area and then for its outside, does what it does without an area. An area that is cloned somewhere and from there back is as before, also if both places overlap; cloned somewhere and from there on, it arrives as if cloned at once, where there were nodes half way (all nodes outside block coordinate -1938, see C47).", "quantifier": "all sessions of runs that end normally, all maps of blocks as Minetest writes them, all permutations, areas and offsets", "why_tests_cant": "orders, overlaps and positions of areas relative to block borders are too many to try", "anchors": ["src/commands/clone.rs: clone", "src/commands/overlay.rs: overlay", "src/commands/mod.rs: get_commands", "src/block_utils.rs: merge_blocks", "src/utils.rs: query_keys"]}
{"id": "C114", "title": "Others use the map at the same time", "statement": "Other programs may use the map file while a run is at work, and the input map may be the main map; SQLite's locks decide who may do what. A run reads what it would read if it had the file for itself from when it got its first lock on it; when it commits, the file still holds that, and then holds what the run makes of it alone; nothing else the run does changes the file. So changes by others are neither lost nor mixed with those of the run. A run whose input map is its main map never changes it, and fails at the commit if it has written anything, provided it has a lock on the input map by then, as it has if it has read from it; overlay without an offset reads before it writes. Alone, a run is refused nothing.", "quantifier": "all commands, arguments, maps, failures (in which SQLite does not undo the transaction, see C55), all statements of any number of other connections between any two statements of the run, memory running short at any statement, and both with versions of SQLite in which PRAGMA table_info keeps a lock and in which it does not", "why_tests_cant": "what others do between the statements of a run cannot be controlled in a test, and there are too many ways to interleave", "anchors": ["src/map_database.rs: MapDatabase::new", "src/map_database.rs: MapDatabase::commit_if_needed", "src/instance.rs: open_map", "src/instance.rs: compute_thread", "src/commands/overlay.rs: overlay"]}
{"id": "C115", "title": "Several runs at the same time", "statement": "Any number of runs of the program may work on the same map file, or read it as their input map, at the same time, their statements coming in any order SQLite's locks allow. Each run reads what it would read if it had the file for itself from when it first looked at it. Those that commit have worked one after the other, in the order of their commits, each alone on what the one before has made of the file; the others leave no trace. In particular, if two runs both come to their ends, the file holds what the second makes of what the first makes of it. A commit that changes the file happens only while no other run has a lock. A run that begins when those before it have ended, wherever they came to an end, is refused nothing; if it comes to its end it makes of the file what it makes alone of what they have left.", "quantifier": "all numbers of runs, all commands, arguments and maps, all schedules, all failures (in which SQLite does not undo the transaction, see C55), memory running short at any statement", "why_tests_cant": "the order in which the statements of several processes reach the file cannot be controlled in a test, and there are too many orders", "anchors": ["src/map_database.rs: MapDatabase::new", "src/map_database.rs: MapDatabase::commit_if_needed", "src/instance.rs: open_map", "src/instance.rs: compute_thread", "src/commands/delete_blocks.rs: delete_blocks"]}
{"id": "C116", "title": "Rows whose key belongs to no block", "statement": "The column `pos` may hold any 64-bit integer, and nothing checks that it is the key of a block. Whatever the key, it is taken for exactly one block: that whose key differs by a multiple of 2^56 and whose x and y are between -2048 and 2047. A query with an area selects the row as if it were that block, `deleteblocks` deletes it or leaves its bytes alone accordingly, and the commands that edit blocks do to it what they do to that block if it is a block of the map (for `replacenodes` and `replaceininv` under the conditions of C35 and C46). Blocks of the map are edited as they should be whether or not there are other rows. Keys from 2^63-2048 on stop a debug build with a panic as soon as an area that holds a whole block is given; for all other keys queries and `deleteblocks` behave the same with machine integers in both builds. The corner of the block a key is taken for, `pos * 16`, is right unless z is outside -2^27..2^27-1, where a debug build panics (`deletemeta`, `deletetimers`, `setmetavar` and `replaceininv` of a whole map do) and a release build wraps.", "quantifier": "all 64-bit keys, all tables with distinct keys, all areas, --invert, partial blocks, both builds; all completed runs of the editing commands", "why_tests_cant": "there are 2^64 keys, of which 2^36 belong to blocks; maps with other keys are not made by Minetest, so none is at hand", "anchors": ["src/spatial/vec3.rs: from_block_key", "src/utils.rs: query_keys", "src/commands/delete_blocks.rs: delete_blocks", "src/commands/fill.rs: fill", "src/commands/replace_nodes.rs: replace_nodes", "src/commands/delete_meta.rs: delete_metadata"]}
