# MapEditr in Lean 4: design of the formal model

Target: random-geek/MapEditr (Rust, `/repo`), read as text only.
Project: `/verif/lean` (Lean 4.33.0), namespace `MapEditr`.  Build: `lake build` in `/verif/lean`.

## Layout

| Path | Content |
|------|---------|
| `Verif/Model/*.lean` | the model: total, computable functions, each citing file and lines of `/repo` |
| `Verif/Spec/*.lean`  | small specifications that do not use the model's algorithms (what a map *means*: node name at a position, box of nodes, byte format, manual, ...) |
| `Verif/Proof/*.lean` | helper lemmas |
| `Verif/Props/*.lean` | the theorems `Cnn_...` of property `Cnn`, each with `example`s showing that its hypotheses can be met |
| `Verif/Tests/*.lean` | the project's own unit tests run on the model (tests, not proofs): they check that the model computes what the program does |
| `seeded/LOG.jsonl`   | wrong programs tried against the theorems |
| `MANIFEST.json`      | property, status, theorems |

A theorem whose name contains `_partial` proves less than its property; `_false` proves that the
property, as stated, does not hold of the code, by a concrete witness.

## Trusted base

* The Lean 4.33.0 kernel.
* Axioms: every theorem depends on a subset of `propext`, `Classical.choice`, `Quot.sound` (checked
  with `#print axioms` for every property theorem).  No axiom is added; there is no `sorry`, `admit`,
  `native_decide` or `bv_decide`.  Mathlib is not imported.
* That the definitions in `Verif/Model` say what the cited Rust lines do (next two sections), and that
  the definitions in `Verif/Spec` and the theorem statements say what the properties mean.

## How Rust is rendered

* `&mut` functions return the new value. `Result`/`Option` stay data. A panic (`unwrap`, `assert!`,
  index out of range, overflow in a debug build) is the explicit value `Stop.panic`.
* Fixed-width node-ID arithmetic (`u16`) is modelled exactly and takes a `Build` argument:
  `debug` panics on overflow, `release` wraps. Theorems quantify over both.
* Coordinate arithmetic (`i32`, `i64`, `u64`) is modelled on unbounded integers in the functions the
  theorems are about.  `Model/Checked.lean` and `Model/Machine.lean` are a second rendering, of the whole
  worker, in which every such operation panics (debug) or wraps (release) as in Rust; C88 proves that a
  run of the one is a run of the other, for all arguments and all maps with different, valid keys, in both
  builds (C10: the same function by function; C102: the whole program with its threads).  `z as i32` truncation
  in `from_block_key` is modelled, and the addition in `deleteobjects` that can overflow is modelled exactly.
* `u64` counters (blocks in total, done, failed; nodes changed) are unbounded in the functions the theorems
  are about, and checked `u64` in `Model/Machine.lean`; C88 and C104 show that they never get near 2⁶⁴. For
  `replaceininv`, which counts stacks, this needs inventories of at most 64 MiB in a block.
* Bytes are `List UInt8`. A `Cursor` is the list of bytes not yet read.  `Model/Memory.lean` is a second
  rendering of the decoder in which a cursor is a slice and a machine position, `vec_with_len` (the only
  `unsafe` code) gives a buffer of arbitrary content, and decompressors give out their data in pieces; C106
  proves it equal to the first.
* `BTreeMap` is an association list sorted by key (`Model/SMap.lean`). `HashMap` is the same (a
  canonical representation), and every place that iterates one takes an arbitrary permutation.
* A loop over a range is a fold / structural recursion. Iterators with state (`AreaIterator`,
  `InverseBlockIterator`) are modelled by their `next` function, drained with fuel; C04 and C05
  show the fuel suffices.
* zlib, zstd: a `Codec` parameter; see assumptions.
* SQLite: a table is a list of `(pos, data)` rows in arbitrary row order; a connection has a durable
  and a current table and a transaction flag; each statement may fail according to an arbitrary oracle
  (`Env.fail`), and if it is one on the main map, SQLite may undo the open transaction then, according to
  another oracle (`Env.undo`).  All statements executed are recorded in a trace; a crash after `n` statements leaves
  the durable table after the first `n` entries.  `Model/Library.lean` is a second rendering of `MapDatabase` in
  which every library call may fail by itself (C110).  `Model/Locks.lean` has the file itself, with other
  connections to it and their locks; there a statement may fail because of others (C114); `Model/Together.lean` has several runs at the same time (C115).
* A command runs in a state-and-exception monad whose state survives exceptions, so the effects of
  a run that panics half way are visible.  Its field `seen` is not in the code: it records every value
  the progress counters have had, which is what the user interface may read at any time (C72).  Neither is
  `acts`, which records every change of the counters and every message, in one order (C112).
* `f32` (`Model/F32.lean`): natural numbers, or natural multiples of a fixed power of two, rounded to 24
  significant bits, ties to even, after every operation.  The values that occur are neither negative nor
  near the limits of the range, so signs, infinities and subnormal numbers are left out.
* Text on the terminal is a list of characters; `Spec/Screen.lean` says what `\r` and `\n` do to the
  visible line.  Times are nanoseconds, given from outside with every turn of the loop (`Tick`).
* Numbers in log messages are kept as numbers in the `Event`; `Msg.render` puts them into the text.
* Threads: the compute thread and the user interface are two processes with FIFO channels
  (`Model/Threads.lean`); theorems quantify over all interleavings, answers and failures.  The mutex around the
  progress counters is in `Model/Shared.lean`, where taking it, changing or copying the counters and giving it
  back are steps of their own.

## Assumptions about what is outside the program

Each is a hypothesis of the theorems that need it, or built into the model where stated.

1. `Codec.Lawful`: decoding an encoding gives the data back and the number of bytes consumed; the first
   byte of a zstd stream is what decoding all of it gives. (`EnvOk.codec`)  `Spec/Toy.lean` has a codec
   meeting it.
2. `Codec.FullWrites`: a single `write` to an encoder accepts the whole buffer. (`EnvOk.full`)  Not
   guaranteed by `Write`; C21 shows what happens otherwise.
3. Hash maps visit every entry exactly once, in any order, possibly different every time. (`EnvOk.ord`)
4. SQLite (built in): a failing statement has no effect, except that SQLite may undo the whole
   transaction (recorded in the trace as `rollback`); `COMMIT` without a transaction and `BEGIN` within one
   are refused, whatever the oracle says; `COMMIT` is atomic; uncommitted changes are
   lost when the program stops; `VACUUM` changes no rows; `INSERT OR REPLACE` and `DELETE` do what they
   say.  All library calls for one statement count as one step that succeeds or fails; C110 shows that this
   loses nothing (`Model/Library.lean` has one step for each library call, and lists what is assumed there).
   `pos` holds integers and `data` holds blobs.
5. `pos` is a primary key: keys in a table are distinct, and are keys of valid positions
   (`GoodTable`); the check of `verify_database` is modelled.  C116 is about keys of no position.
6. The main map and the input map of `overlay` are different files, and nobody else uses them (built in:
   connections do not see each other).  C114 does without: `Model/Locks.lean` has one file with any number of
   connections and SQLite's locks.  Which locks SQLite takes is an assumption then (listed at the top of that file);
   whether `PRAGMA table_info` keeps one is left open.
7. clap (`Spec/CmdLine.lean`, `Accepted`): what it hands over has the declared arguments only, with the
   declared numbers of values, and the required ones.
8. Paths are joined with `/` (Unix; built in).
9. The user interface is alive while the compute thread sends (in the single-threaded rendering); the
   two-thread model covers the rest (C60).
10. `Codec.Sized` (C106 only): zlib consumes no more bytes than it is given, and what comes out fits in a
   vector (fewer than 2⁶³ bytes).

## Not modelled

* `testing.rs` and the `#[cfg(test)]` modules.
* clap's own parsing of the command line (only its contract), help texts, `--help`.
* Failure to start the thread.
* Time, memory exhaustion, stack depth, signals.
* Pre-allocation when saving (`Vec::with_capacity`; that of loading is in `Model/Memory`); the growth of
  vectors; performance in general.  What a compiler may do with uninitialised memory: the model says what
  the bytes are used for (C106), not what the language allows.

## What the code does wrong

Found while proving; each is a theorem.

| Property | Theorem | What happens |
|---|---|---|
| C21 | `C21_false` | `write_string16/32` use `write`, whose count is ignored: an encoder that takes part of the buffer leaves a block that cannot be read again |
| C22 | `C22_false` | private marks of metadata are lost when saved in a block of version 25–27 (possible through clone/overlay from newer blocks) |
| C23 | `C23_false` | an inventory line ending in `EndInventory` (an item of that name) ends the inventory |
| C32 | `C32_unnamed_false` | where `fill` fills part of a block, nodes outside the area whose ID is missing from the name table get a name (that of the first one) |
| C35 | `C35_last_id_false` | `replacenodes` in a release build: if ID 65535 has a name, the new name gets ID 0 and all nodes with that ID are renamed, inside the area or not |
| C35 | `C35_unnamed_false` | nodes outside the area whose ID is missing from the name table get the new name if theirs is the next free ID |
| C33 | `C33_false` | `fill --invert` reports the nodes *inside* the area for partly covered blocks |
| C34 | `C34_false` | `fill` fills stored blocks that are marked as not generated |
| C38 | `C38_false` | `setparam2` panics always: the value is defined as `param2` but looked up as `param2_val` |
| C44 | `C44_false` | plain item strings with a count (`default:stone 5`) or beginning with `return` do not yield the item name |
| C45 | `C45_false` | blank lines disappear from an inventory when another line is replaced |
| C46 | `C46_false` | a new item name ending in `EndInventory` breaks the inventory |
| C47 | `C47_failed_read_false` | a block whose read fails is silently treated as absent (`.ok()`, `src/commands/clone.rs:38`): nodes are not copied and no message says so |
| C47, C51 | `C47_false`, `C51_false` | `is_valid_block_pos` allows −1937..1937, but nodes −31000..−30993 are in block −1938: never copied |
| C50 | `C50_false` | `overlay` with an area does not check that a partly selected source block is generated |
| C54 | `C54_false`, `C54_overlay_false` | `clone` skips undecodable blocks of unsupported versions without counting them; `overlay` overwrites unreadable blocks of the main map |
| C55 | `C55_false` | if reading a destination block fails during `clone` or `overlay` and SQLite undoes the transaction, the command carries on without one: what it writes from there on is saved at once, what it wrote before is lost, and the run ends with an error |
| C58 | `C58_false` | `replacenodes` does not count blocks it cannot decode as done |
| C61 | `C61_false` | `clone` and `overlay` take a failing read for a missing block |
| C62 | `C62_false` | `begin_if_needed` never sets `in_transaction`: a write after a commit is not committed |
| C77 | `C77_clean_false` | when the remaining time falls below an hour the progress line gets shorter, and two letters of the old one stay visible (`remainingng`) |
| C78 | `C78_end_false` | if a statement fails while editing, the program ends with the cursor behind the progress line |
| C80 | `C80_both_false` | if the `VACUUM` statement fails, the error is shown and then "Done." |
| C84 | `C84_false`, `C84_panic_false` | the exit status is 0 after errors, and also if the compute thread has panicked (`let _ = handle.join()`) |
| C89 | `C89_*_false` (five commands) | a name that is twice in a name table: `get_id` finds its least ID, so nodes of that name with the other ID are not replaced, set or deleted |
| C90 | `C90_false` | `replaceininv` with a new name ending in `EndInventory`, run twice, may replace further: what follows the new line is read as the metadata of the next node |
| C92 | `C92_timers_false`, `C92_ungenerated_false`, `C92_deleted_false` | `overlay` of the old map does not bring back timers deleted from a partly selected block, changes of a block not marked as generated, or deleted rows whose data does not say generated |
| C103 | `C103_false` | `replacenodes` saves a block again if the name is in its table though no selected node has it; with another compression level or trailing bytes the row changes |
| C107 | `C107_false`, `C107_fill_false`, `C107_replacenodes_false`, `C107_deleteobjects_false`, `C107_clone_false`, `C107_clone_half_false`, `C107_overlay_false` | what a map contains can make the compute thread panic: metadata (or a timer) for node number 4096 or more with `--node`; name IDs 65534/65535 with `fill` on part of a block, and in debug builds with `replacenodes`; in debug builds an object at the end of the number range with `deleteobjects --area`; name ID 65535 (in debug builds, 32768) in a block that `clone` or `overlay` copies nodes into |
| C110 | `C110_false`, `C110_write_false` | if `next` or `read` fails in `get_block` (`next` in `set_block`, `delete_block`), `?` skips the `reset` (`src/map_database.rs:109-139`); SQLite refuses to bind to a statement that was not reset, so one failed read makes all later reads of that map fail, too. `clone` and `overlay`, which take a failed read for a missing block, then leave out all remaining blocks without a message |
| C112 | `C112_none_false`, `C112_replacenodes_false` | the last progress line of a run that ends well says `0.0%` if nothing is selected (`src/cmd_line.rs:204-207`), and less than `100.0%` if `replacenodes` skips a block (`src/commands/replace_nodes.rs` counts it as failed but not as done, C58) |
| C113 | `C113_objects_false` | `deleteobjects` for an area and then for its outside can leave an object: one inside the area that is kept in a block outside of it (the selection is by block first) |
| C114 | `C114_undo_false` | after a lost transaction (C55) the run has no locks either: it overwrites what another program has written since, and then ends with an error |
| C114 | `C114_self_stuck` | `overlay` of a map onto itself: nothing keeps a user from giving the main map as input map; if the run has anything to write, it does all its work and then fails at the commit with a database error, since its other connection has the file locked |
| C115 | `C115_both_false` | two runs on the same map at the same time may both fail because of each other, `deleteblocks` even by a panic: transactions are begun as deferred ones (`BEGIN`), so both may have read when the first writes |
| C116 | `C116_false`, `C116_panics_false`, `C116_far_false` | nothing checks that a key belongs to a block: a row with key 2⁵⁶ + 1 is deleted as if it were block (1, 0, 0) (`as i32` drops the upper bits of z), and with a key from 2⁶³ − 2048 on a debug build panics (`src/spatial/vec3.rs`); with key 2⁵¹ (z = 2²⁷) the corner `pos * 16` overflows and a debug build panics in `deletemeta`, `deletetimers`, `setmetavar`, `replaceininv` of a whole map |

Further facts, visible in hypotheses of the theorems:

* `clean_name_id_map` panics if a node ID exceeds the greatest named ID, if the name table is empty, or
  (C26) if ID 65535 is named; node IDs without a name below that become ID 0 (hence `Named`).
* `merge_blocks`: node IDs without a name can capture names of the other block (hence `Named`).
* `replacenodes`, `setparam2`, ...: with duplicate names in a name table only the least ID counts
  (hence `UniqueNames`; C89 says what happens without it).
* Metadata or timers at index i ≥ 4096 are taken to be at node i mod 4096 (`from_u16_key` masks z; the
  theorems say `posAt bp (i % 4096)`). If a node is named, such an index makes the command panic; so
  `MetaInside`, `TimersInside` are only needed to show that a run completes.
* `deleteobjects` looks only at blocks some node of which is selected, so an object stored in another
  block than its position says is not found; positions above 2147478647 overflow: a debug build panics
  then (hence `ObjectsNear` in `C43_deleteobjects_completes`), a release build wraps around to a
  position outside every area.
* `overlay --invert` with an area: a partly covered block becomes the *source* block with the area
  taken from the main map (objects, timers, flags come from the source).
* The prompt shows `(Y/n)` but an empty answer means no (C63). `is_valid_name` accepts `:` (C67).
* A cache of capacity 0 holds one entry (C59). Keys outside the map's range decode to positions of
  other blocks (hence `GoodTable`).
* A failed `VACUUM` is reported as an error, then the run ends with `Done.` (C53).

## Per property

Status is `proved` unless the last column says otherwise. "All" columns quantify over every input, state,
environment and build unless hypotheses are named.

| Property | Model (`Verif/Model`) | Theorems in `Verif/Props` | How, hypotheses, gaps |
|---|---|---|---|
| C01, C02 | `Spatial`: `fromBlockKey`, `toBlockKey` | `Spatial` | modular arithmetic against the specified key formula |
| C03, C06–C09 | `Spatial`: `Area` | `Spatial` | per axis, against sets of nodes |
| C04, C08 | `AreaIter`, `volume` | `Spatial` | induction on rows; order, no duplicates, count |
| C05 | `InvIter` | `Spatial` | loop invariant |
| C10 | `Checked` | `Spatial` | checked rendering = unbounded one for accepted arguments |
| C11 | `fromU16Key` | `Spatial` | arithmetic |
| C12, C14 | `Utils.queryKeys` | `Query` | fold = filter; exact set, no duplicates, only a read |
| C13 | `queryKeeps` + decoder | `Query` | decoded names are infixes of the stored bytes |
| C15–C20 | `MapBlock` | `Block` | round trip against `Spec/Format`; assumptions 1–3 |
| C21 | `Codec.emit` | `Block` | partial: assumption 2 needed |
| C22 | `wrMetaList` | `Block` | partial: versions 28, 29 |
| C23 | `rdMeta` | `Block` | partial: no line ends in `EndInventory` |
| C24, C25 | writers, `isValidGenerated` | `Block` | |
| C26, C27 | `cleanNimap` | `BlockUtils` | fold invariant; `Named`, IDs < 65535 |
| C28, C29, C31 | `mergeBlocks`, `mergeMetadata` | `BlockUtils` | fold invariants; `Named`, sum of IDs fits 16 bits (C31: eight merges of `Sane` blocks do) |
| C30 | `removeShift` | `BlockUtils` | loop invariant |
| C32–C34 | `fill` | `Fill` | generic loop lemma (`Proof/Loop`); no hypotheses on blocks or names: what must hold of them follows from the run having completed (`Proof/Effect`, `Proof/CleanAny`); `C32_fill_completes` says when it does; C33 partial without `--invert`; C34 partial: no block created |
| C35, C36 | `replaceNodes` | `ReplaceNodes` (`Proof/ReplaceAny`) | C35 partial: every run that completes on a map whose name tables have no name twice, fewer than 65535 names and, in a release build, no ID 65535 (`GoodIds`; false otherwise, see table above); C36 needs only the first of these |
| C37 | `setParam2` | `Param2` | the command itself, given a value; from the command line see C38; `UniqueNames` if a node is named (C89 without) |
| C38 | `CmdLine` | `CmdLine`, `Runs` | partial: all other arguments arrive |
| C39 | `deleteBlocks` | `DeleteBlocks` | |
| C40, C42 | `deleteMetadata`, `deleteTimers` | `DeleteMeta` | every run that completes; `UniqueNames` if a node is named (C89 without) |
| C41 | `setMetaVar` | `SetMetaVar` | same |
| C43 | `deleteObjects` | `DeleteObjects` | every run that completes; `ObjectsNear` only to complete in a debug build with an area |
| C44, C45 | `getItemName`, `invReplace` | `Items` | partial, see table above |
| C46 | `replaceInInv` | `ReplaceInInv` | partial: new name does not end in `EndInventory`, stored inventories as Minetest writes them (`InvsGood`); `UniqueNames` as before |
| C47, C48 | `clone` | `Clone` (`Proof/CopyAny`) | loop invariant over processing order, cache content arbitrary; every run that completes: `Mild` blocks (metadata indices below 61440; in release builds also node IDs at most 7280), no statement of the run fails (`DbWorks`); that it completes: `Tame` blocks. Nodes without a name are not spoken of. C47 partial: source blocks within ±1937 |
| C49 | `overlay` without area and offset | `Overlay` | exact bytes |
| C50 | `overlay` with area | `Overlay` | partial, see table above; blocks as for C47 |
| C51 | `overlay` with offset | `Overlay` | partial, as C47 |
| C52 | `overlay` | `Runs` | trace: only reads on the input map |
| C53 | `vacuum` | `Runs` | trace |
| C54 | all commands | `Skips` | partial, see table above; nothing is assumed about the blocks, and that no statement fails only for the counts of `clone` and `overlay` |
| C55 | `computeThread` | `Runs`, `Rollback` | partial: trace invariant, all failure oracles, but for `clone` and `overlay` no failing read undoes the transaction (false otherwise); without exception for runs that end with "Done." |
| C56, C57 | `computeThread` | `Runs` | trace invariants, all failure oracles |
| C58 | status counters | `Skips` | partial: exact count for `replacenodes` |
| C59 | `CacheMap` | `Helpers` | invariant over operation lists |
| C60 | `Threads` | `Threads` | invariant over all interleavings; progress by a measure under fairness |
| C61, C62 | failure oracle | `Runs` | partial, see table above |
| C63, C64, C67, C68 | `CmdLine`, `Utils` | `Helpers` | |
| C65 | fill, replacenodes, deleteblocks, deletemeta, deletetimers | `Twice` | from the command theorems; the deleting commands without hypotheses on blocks or names |
| C66 | `colsOk`, `MapDb.new` | `Runs` | |
| C69 | decoder | `Block` | exactly the format of `Spec/Format` |
| C72 | `World.seen`, all commands | `Progress` | invariant of every step, also of those that fail |
| C73 | `F32`, `Screen`: `fmtBigNum` | `Numbers` | error of each rounding; monotone |
| C74 | `Screen`: `editingText` | `ProgressLine` | error bounds; `total < 2^64`, times below 2^58 s; with C72 for all runs |
| C75, C76 | `Screen`: `Ui.step`, `logText` | `Screen` | invariant over the loop; typed input ends with a newline |
| C77 | `Screen` | `ProgressLine` | partial: estimates below 3590 s; false otherwise |
| C78 | `Screen` | `Screen`, `Report` | partial: all runs that do not panic; false otherwise |
| C79 | `Instance` | `Report` | proved |
| C80 | `Instance` | `Report` | partial: not both an error and "Done." except for `vacuum`, where it is false |
| C81 | `Instance` | `Report` | proved |
| C82 | `Instance` | `Refusals` | proved |
| C83 | `clone`, `overlay` | `Reads` (`Proof/CopyAny`) | proved; loop invariants without any assumption on `env.fail` and `env.undo`: a failed read may only leave nodes or blocks as they were |
| C84 | `Main` | `Whole` | partial: status 0 whenever the terminal works; false as stated, see table above |
| C85 | `Main`, `CmdLine`: `toInstArgs` | `Whole` | proved; assumption 7 |
| C86 | `Main`, everything | `Whole` | proved: for any command but `vacuum`, `setparam2` that the run is that of the typed arguments; for `fill` the whole way from the typed text to the nodes in the file, and that it ends |
| C87 | everything that executes statements | `Oracle` (`Proof/Oracle`) | proved; relational: two environments that differ in `fail` and `undo` only |
| C88 | `Machine` (the whole worker with checked integers) | `Machine` (`Proof/Machine`, `Proof/MachineRun`) | proved, counters included (`Proof/MachineSteps`: bounds on what one step counts); maps with different keys of blocks (an example shows the need), for `replaceininv` at most 64 MiB of inventories in a block |
| C89 | `getId` in all commands with a node name | `TwoIds` | partial: what happens in general (the least ID of the name counts); false as stated, see table above |
| C90 | the same commands | `Again` | second run of `deleteobjects`, `overlay` without area (same bytes), `setparam2`, `setmetavar`, `overlay` with area (named source nodes, `Mild` blocks, no failing statement in the first run), `replaceininv` (same contents); the last is partial, with the hypotheses of C46; `AgainFalse`: false otherwise |
| C91 | `fill`, `clone`, `overlay`, `clean_name_id_map` | `Tidy`, `TidyData` | changed rows have name table 0, 1, 2, … without duplicates or unused IDs; any failing statements; `fill` for any blocks, the others for `Mild` ones |
| C92 | every changing command, then `overlay` of the old map | `Undo` | partial: generated blocks, no failing statement in the restoring run; `deletetimers` and `deleteobjects` not for partly selected blocks; false as stated, see table above |
| C93 | `Screen`: `format`, `Msg.render`, `Ui.step`; all counting commands | `Told` | induction over the ticks of the loop; `Spec/Told` says what is on the terminal; counts from C33, C36, C37, C40-C43, C46, C54 |
| C94 | all commands of `nodeCommands` | `Session` | `Spec/Session` sees a map as nodes at positions and a command as the function `edit` on one node; each command's own theorem (C32, C35, C37, C39-C43, C53) gives one run (`acts_run`), induction over `Session` the rest |
| C95 | all commands but `replaceininv` | `Exec` | `Spec/Exec` sees a map as a partial function from positions to nodes and gives the `meaning` of each command as a function on such maps; `copied_nodes` and `overlaid_nodes` turn `Copied` (C47, C51) and `Overlaid` (C49, C50) into it, C91 supplies the names afterwards, C94 the rest; induction over `RanAll` |
| C96 | all commands | `Every` | `Spec/Stacks` gives what `replaceininv` makes of an inventory as a function on its lines, proved equal to the relation `LinesEdit` of C46 (`linesEdit_fn`); `run_plain` shows that no command ever makes an inventory of another form, so C95 extends to all commands (`means_every`); `C96_gone` and `C96_back` follow from the functions alone |
| C97 | all commands | `Rest` | `Spec/Rest` sees the rest of a map as a partial function from block positions to `BlockRest` and gives `restMeaning` of each command; `edited_rest`, `copied_rest` and `overlaid_rest` turn the relations of C32-C51 into it; induction over `RanAll` together with C96 |
| C98 | the whole program | `Program` | `Spec/Program` says what a use of the program is (`Used`: command line, reachable state of the threads, number of statements executed, file afterwards) and what a list of uses means (`Applied`); `used_step` shows that the file is unchanged or the command completed (C55, C80, with `never_undone` for the hypothesis of C55) with the typed arguments (C38, C70); then C96 and C97 |
| C99 | the program comes to its end with "Done." | `Total` | the `_completes` theorems of C32–C53 together (`completes_every`, `vacuum_completes`) show that the compute thread ends well; `C60_terminates` that every fair execution ends; `printed_with` that "Done." is printed, and that the user was asked; then C98 says what the file contains. `C99_possible`: there always is such an execution |
| C100 | a map stays usable | `Total` | `Proof/Place` shows that every command keeps metadata, timers and objects in place; blocks that were rewritten hold no void metadata (`Written`), so `metaOf`, which the theorems on commands speak of, sees all of it; with C96 the hypotheses of C99 hold again after any uses as in C98 |
| C101 | any number of uses | `Forever` | `Proof/TidyKeep`: the three ways `replacenodes` changes a name table (rename in place, remove with shift, add at the end with removal if unused) keep the IDs 0..n-1 all named and used; the other commands leave the table alone or write tidy blocks (C91); so IDs stay below 4096 and the bounds of C98 and C100 go |
| C102 | `MachineMain` (`compute_thread` in threads, with the commands of `Model/Machine`) | `MachineMain` | `Proof/MachineMain`: the commands are the same runs (C88), so the programs of the worker are equal, hence the systems of threads; then C99 |
| C103 | as C35–C46 | `Idle` | from the row-by-row description of the loop (`Edits`) and the edits of one block: a count of 0 means the block is not saved.  For `replacenodes` and `setparam2` only blocks without the name in their table (`_partial`); `C103_false` |
| C104 | `Machine` (`incDone`, `incFailed`, `addTo`), `World.seen` | `Counters` | `Proof/Totals`: the total is the number of keys read, at most the rows of a map, at most 2³⁶ different keys of blocks exist; with C72 and C88 |
| C105 | `World.trace`, `World.events`, all commands | `Cost` (`asked`, `keysWritten`) | `Proof/Cost`: a cost for each step (statements, messages, blocks written), added up over the keys read; at most 8 source blocks for each block of `clone` and `overlay` |
| C106 | `Model/Memory` (`Raw`): `vec_with_len`, `try_read_n`, cursors with positions, decoders in pieces, `MapBlock::deserialize` | `Memory` (`Codec.Sized`) | `Proof/Memory`: every reader does on a cursor what the plain reader does on the bytes left (`Does`), asking for no more memory than the bytes it consumes, but for a constant; composed over the whole block |
| C107 | all commands | `Crash` (`Stuck`, `Ordinary`), `CrashCopy` (`Joins`, `Drawn`, `Tidies`, `StuckCopy`) | `Proof/Crash`: the loop over the rows either completes or meets a row at which the edit panics (`crash_iff`); `Proof/CrashMeta`, `Proof/CrashNodes`: the blocks at which each edit panics, exactly. `clone` and `overlay`: `Proof/JoinExact` (merging one block works exactly if `Joins`, tidying exactly if `Tidies`), `Proof/DrawnExact` (all source blocks, in order), `Proof/CopyGoes` (the loop completes if no block is stuck), `Proof/CrashCopy` (a completed run shows that none was). `Props/CrashElse`: if it does not crash it ends normally (`C107_completes_iff_partial`, `C107_copy_completes_iff_partial`). `_partial`: the property itself is false, `C107_false` and six more |
| C108 | the worker, exact and with machine integers (`Model/Instance`, `Model/Machine`), and both threads (`Model/MachineMain`) | `Builds` (`SameUntilOverflow`, `Overflow`, `Before`) | `Proof/Builds`: every pure function gives the same in both builds or overflows in the debug build (`Over`; closed under binding, since a panic ends everything); `Proof/BuildRun`, `BuildExact`, `BuildMachine`: the same of everything that touches the database, where the release build only adds to what has been done (`Pair`); `Proof/BuildThreads`: the program of the worker is that of the release build cut off at a panic (`Cut`), hence a simulation of the two threads. It also frees C47, C50 and C51 of the bound on IDs in release builds, if the debug build does not crash (`C47_clone_builds_partial` and so on) |
| C109 | the commands and the worker (`Model/Commands`, `Model/Instance`) | `Pieces` (`SameRow`, `CountIs`, `ComesFrom`) | `Proof/Pieces`: the final row of an edit command is a function of the starting row (`doneRun_edits`, `Touched`), and its counts are sums over the rows, hence do not change if rows are put in another order and add up over two pieces; `Proof/PiecesCopy`: the rows made by `clone` and `overlay` are a fold over the parts that nodes come from, each read from the map as it was (`RawRow`, `RowsDone`), so equal sources give equal rows |
| C110 | `Model/Library` (`MapDatabase`, one library call at a time) | `Library` (`Op.whole`, `Client.ideal`) | `Proof/Library`: the calls for one statement act as that statement or fail (`Acts`); `Proof/LibraryRun`: so each function, and by induction each client, matches the coarser model under some oracle that is chosen on the way (`sim_client`; what was chosen before stays, `Det`); `Proof/LibraryStuck`: a statement that was not reset stays so. Partial: contagion of failures, see table above |
| C111 | the worker (`Model/Instance`) | `Decides` in `Props/Adaptive` | the failures are chosen one after the other; by `C87_prefix` a later choice does not change earlier statements or which statement is next. `Proof/Unread`: as long as no read of the main map succeeds the block cache holds absent blocks only (`NoneIn`), and nothing is written (`Idles`) |
| C112 | `Model/Shared` (mutex, channel, turns of the loop), `World.acts`, `Model/Screen` | `Shared` (`Faithful`), `HasLine` | `Proof/Shared`: invariant of all schedules (`Good`); `Proof/Acts`: every command passes through its four stages, after the second the total stays, after the fourth all counters (`Stage`, `Moves`); `Proof/Lines`: so what is read when the end of a stage is received is what the counters are at its end |
| C113 | all commands (`Model/Instance`) | `Order` (`ActsOn`, `TakesFrom`, `Apart`, `within`), `meaning`, `restMeaning` | from C96 and C97: a node after a command depends on the node before and, for `clone`, on the node copied (`meaning_local`), so functions of commands that are apart commute (`meaning_comm`, `rest_comm`); `List.Perm.foldl_eq'` gives all orders. Copying back and on by computing with `copiedNode` |
| C114 | `Model/Locks` (a file, its connections and locks), the worker's statements | `Locks` (`Allowed`, `FirstLock`, `LooksAt`, `ReadsFirst`, `seesAlone`) | `Proof/Phases`: the statements of a run come in order (open, begin, look, read and write, commit); `Proof/Locks`: once it has read or written it has a lock, so the content stays what it was, whatever others do (`Stands`, `undisturbed_step`), and whoever has written keeps the RESERVED lock; there is one first lock (`looks_run`). `Proof/First`: `overlay` without an offset reads before it writes, which `C114_self` needs if `PRAGMA table_info` gives no lock. `C114_possible`: such runs exist in every company (by C111). SQLite not undoing the transaction is a hypothesis (C55 shows what happens else) |
| C115 | `Model/Together` (a schedule of the statements of any number of runs on one file with locks, and of the closing of their connections, e.g. when a process ends) | `Together` (`OfRuns`, `NoneClosed`, `AllAllowed`, `MeetsAt`, `commits`, `InTurn`, `OnlyRefused`) | each run stands to the file as in C114 (`stands_together`, with the same `Stands` and `stands_self`), where the others now are runs too; a run commits once (`commits_once`); `C115_serial` follows by induction on the schedule, `C115_two` from it being only two; `C115_next` (a run that begins when nobody uses the file is refused nothing, and leaves the file unused: `LoneOf`, as in C114) and `C115_then` (what it makes of the file) give `C115_chain` by induction: any runs one after the other are a schedule as required, so the premises are never empty.  Premise as in C114: SQLite does not undo transactions by itself.  False: that of two runs at the same time one comes to its end (`C115_both_false`) |
| C116 | `Model/Spatial`, `Model/Utils`, `Model/Commands`, `Model/Machine` as they are, without `GoodTable.valid` | `Stray` (`Is64`, `TakenFor`: arithmetic on the key alone; `EditedAs`) | `C116_taken` for all integers by `omega`; `C116_machine` says exactly when the machine version panics; `C116_query`, `C116_deleteblocks` by the lemmas of C12 and C15, generalised to the block a key is taken for; eight theorems `C116_fill`, `C116_replacenodes`, … with `EditedAs` in place of `Edited`, all by `edited_as`: the edit of a block depends on the key only by its position, so the lemmas about one block (`Effect`) apply; blocks of the map are edited right in spite of such rows, since `C32_fill`, `C35`, `C37`, `C40`–`C43`, `C46`, `C89` assume only that keys are distinct; `C116_query_machine` (same with machine integers) and `C116_stops` (does not get past the last 2048 keys in a debug build); `C116_corner` (exactly when the corner of the block overflows) and `C116_deletemeta_far`, `C116_deletetimers_far`, `C116_setmetavar_far`, `C116_replaceininv_far` (a debug build then panics); false in general that such rows are left alone: `C116_false`, `C116_panics_false` |
| C70, C71 | `argDefs`, `toInstArgs`, `commands` | `CmdLine` | C70: assumption 7; C71: compared with the manual's usage lines |
