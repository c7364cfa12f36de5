{"id": "C01", "title": "Every constructible pitch is a MIDI note number", "statement": "Building a pitch from note name, octave and accidental succeeds exactly when semitone(name)+12*(octave+2)+accidental lies in 0..=127, the pitch then reports exactly that number and keeps the three inputs; it reports TooLow exactly below 0 and TooHigh exactly above 127. Every pitch obtained by any chain of up/down/toggle/shift/key operations again satisfies this.", "quantifier": "all note names, octaves, accidentals; all finite chains of pitch operations", "why_tests_cant": "Tests sample a few pitches; the claim covers each combination and every chain of edits.", "anchors": ["src/pitch.rs: Pitch::value_of, Pitch::new, up, down, toggle_sharp, toggle_flat, toggle_natural, apply_key, with_score_offset_delta", "src/solfa.rs", "src/octave.rs", "src/sharp_flat.rs"]}
{"id": "C02", "title": "Staff step up and down are exact inverses", "statement": "When stepping a pitch one staff position up succeeds, its staff position rises by exactly one, its accidental is kept and stepping down gives back the original pitch; symmetrically for stepping down. Stepping fails exactly when there is no neighbouring staff position or its MIDI number leaves 0..127, with TooHigh (up) / TooLow (down), and never panics.", "quantifier": "all valid pitches", "why_tests_cant": "An inverse law with an exact failure boundary over the whole pitch domain.", "anchors": ["src/pitch.rs: Pitch::up, Pitch::down", "src/solfa.rs: AddAssign, SubAssign", "src/octave.rs: AddAssign, SubAssign"]}
{"id": "C03", "title": "Moving a pitch on the staff is exact", "statement": "Moving a pitch by d staff steps either yields the pitch whose staff position is exactly d higher with the same accidental, or an error; moving by 0 never changes a pitch; moving by a then b equals moving by a+b; errors occur exactly when the target is off the 0..74 staff or its MIDI number leaves 0..127; creating a natural pitch from a staff position inverts the staff position and clamps outside 0..74.", "quantifier": "all valid pitches and all 32-bit step counts", "why_tests_cant": "Quantifies over unbounded deltas and every pitch; the boundary at the top of the staff is never tested.", "anchors": ["src/pitch.rs: Pitch::with_score_offset_delta, from_score_offset, score_offset_to_solfa_octave", "src/octave.rs: Octave::from_score_offset, value_of", "src/note.rs: Note::drag"]}
{"id": "C04", "title": "Accidental toggles are cycles", "statement": "The sharp toggle goes sharp -> double sharp -> none -> sharp (flat likewise; natural toggles natural/none), from any other accidental it enters the cycle; the note name and octave never change; hence three successful sharp (flat) toggles from a state of the cycle, or two natural toggles, give back the original pitch; a toggle fails exactly when the new MIDI number leaves 0..127.", "quantifier": "all valid pitches", "why_tests_cant": "Whole-domain state machine law.", "anchors": ["src/pitch.rs: toggle_sharp, toggle_flat, toggle_natural"]}
{"id": "C05", "title": "Key signatures alter exactly the right notes", "statement": "Applying a key signature with n sharps (flats) alters exactly the plain notes whose name is among the first n of the circle-of-fifths order F C G D A E B (B E A D G C F), raising (lowering) them by one semitone; all other pitches are returned unchanged; the only failures are altered notes leaving 0..127.", "quantifier": "all pitches and all keys, including out-of-range stored keys", "why_tests_cant": "Complete table over pitch x key.", "anchors": ["src/pitch.rs: Pitch::apply_key", "src/key.rs: Key, SOLFAS"]}
{"id": "C06", "title": "Note value lengths follow the dotted/tuplet formula", "statement": "The length of a note value with k dots and tuplet denominator m is floor(2*(L + L - floor(L/2^k))/m), L the undotted length; adding a dot never shortens, increasing the denominator never lengthens it, and no length exceeds 1913 ticks.", "quantifier": "all numerators, all denominators 2..255, all dots 0..7", "why_tests_cant": "Arithmetic law over the whole domain with truncating division.", "anchors": ["src/duration.rs: Duration::tick_length, tick_len"]}
{"id": "C07", "title": "Bar length of a time signature is exact", "statement": "A time signature n/d denotes exactly 960*n/d ticks with no rounding, always between 15 and 47520 ticks, so a bar is never empty.", "quantifier": "all constructible time signatures", "why_tests_cant": "Divisibility for every numerator/denominator; zero-length bars would make bar completion loop.", "anchors": ["src/rhythm.rs: Rhythm::tick_len, Numerator, Denominator"]}
{"id": "C08", "title": "Adding ticks to a trimmer loses nothing until saturation", "statement": "Adding t to a four-slot trimmer changes the total by exactly t as long as the result fits in four 16-bit slots, and otherwise saturates at the extreme total in the direction of t; the cached total always equals the sum of the slots.", "quantifier": "all slot contents and all 32-bit t (no 32-bit overflow)", "why_tests_cant": "Carry propagation over the four slots for all inputs.", "anchors": ["src/trimmer.rs: Trimmer::added, new, sum"]}
{"id": "C09", "title": "Trimmers survive save and reload", "statement": "A trimmer serialised as its four slots and read back is the same trimmer with the same total.", "quantifier": "all trimmers", "why_tests_cant": "Holds only when partial sums fit 16 bits; tests use small numbers.", "anchors": ["src/trimmer.rs: Trimmer::from_array, from_vec, Serialize, Deserialize"]}
{"id": "C10", "title": "Sounding start and velocity are clamped sums", "statement": "A note starts at max(0, base tick + start trim total) and sounds with velocity clamp(0,127, base velocity + velocity trim total).", "quantifier": "all notes with 32-bit ticks and any trimmers", "why_tests_cant": "Integer width conversions at the extremes of the domain.", "anchors": ["src/note.rs: Note::start_tick, Note::velocity, Note::end_tick", "src/velocity.rs: Velocity::new"]}
{"id": "C11", "title": "Moving a note, bar, tempo or pedal in time is exact or refused", "statement": "Adding a tick delta to an item shifts its start by exactly that delta, is refused exactly when the start would become negative, changes nothing else, and two successive moves compose to their sum.", "quantifier": "all items and all 32/64-bit deltas", "why_tests_cant": "Truncation to 32 bits and sign handling at boundaries.", "anchors": ["src/note.rs: Note::with_tick_added", "src/bar.rs: Bar::with_tick_added", "src/tempo.rs: Tempo::with_tick_added", "src/ctrl_chg.rs: CtrlChg::with_tick_added"]}
{"id": "C12", "title": "Grid snapping picks the nearest grid line", "statement": "Snapping returns a multiple of the grid size at distance at most half a grid, snaps grid lines to themselves, is monotone, and treats negative offsets as the mirror image.", "quantifier": "all positive grids and all (non-overflowing) ticks", "why_tests_cant": "Rounding law over all integers with truncating division.", "anchors": ["src/grid.rs: Grid::snap"]}
{"id": "C13", "title": "Tick to bar location and back is the identity", "statement": "Converting any 32-bit tick to a (bar, offset) location and back returns the same tick, whatever bars the project holds.", "quantifier": "all projects and all 32-bit ticks", "why_tests_cant": "Needs every bar layout and every tick.", "anchors": ["src/project.rs: ProjectImpl::tick_to_location, location_to_tick"]}
{"id": "C14", "title": "Locations respect time order", "statement": "Later ticks have later locations: t1 < t2 iff location(t1) < location(t2) lexicographically, and the offset stays inside the bar (below the next bar's start).", "quantifier": "all projects, all pairs of ticks", "why_tests_cant": "Relational property over pairs of inputs and all layouts.", "anchors": ["src/project.rs: ProjectImpl::tick_to_location", "src/location.rs"]}
{"id": "C15", "title": "Location to tick never silently wraps", "statement": "Converting a location either returns the exact tick bar start + offset or reports overflow; it never panics or returns a wrapped tick.", "quantifier": "all projects and all machine-word locations", "why_tests_cant": "Requires inputs near the machine word limit.", "anchors": ["src/project.rs: ProjectImpl::location_to_tick"]}
{"id": "C16", "title": "Effective tempo, pedal, rhythm and key are those of the latest preceding event", "statement": "tempo/pedal/time signature/key at tick t is the value of the latest event at or before t that carries one, and the default when there is none.", "quantifier": "all projects and ticks", "why_tests_cant": "Binary-search off-by-ones appear only for particular layouts.", "anchors": ["src/project.rs: tempo_at, dumper_at, soft_at, ctrl_chg_at, rhythm_at, key_at"]}
{"id": "C17", "title": "Song end equals the maximum note end", "statement": "The computed end of the last sounding note equals the maximum end tick over all notes, although only a window of notes is scanned.", "quantifier": "all note collections", "why_tests_cant": "The window optimisation is right only if no note is longer than the window; needs a bound over all notes.", "anchors": ["src/project.rs: ProjectImpl::note_max_end_tick", "src/note.rs: Note::LONGEST_TICK_LEN"]}
{"id": "C18", "title": "Automatic bar completion", "statement": "After an edit that adds or changes content, bars reach at least the end of all notes, tempos and pedals; the bars added are exactly the regular continuation of the last bar in its time signature, as few as possible, and existing bars are untouched.", "quantifier": "all projects and edits", "why_tests_cant": "Loop over unbounded bars; minimality and coverage for every layout.", "anchors": ["src/project.rs: replenish_bars, add_note, add_tempo, add_dumper, add_soft, bulk_add, change"]}
{"id": "C19", "title": "Undo restores the project exactly", "statement": "Undoing an edit right after making it restores the time signature, key, bars, tempos, pedals and grid exactly and the notes as a bag.", "quantifier": "all projects and all edits that remove or change only items of the project and add at most one bar, tempo or pedal per tick (C23 covers the other edits)", "why_tests_cant": "Every edit on every project, including overwritten items and auto-completed bars.", "anchors": ["src/project.rs: ProjectCmd::undo, ProjectCmd::redo, Project::add_note..change"]}
{"id": "C20", "title": "Replaying the recorded command reproduces the edit", "statement": "Re-executing the recorded command on the project before the edit gives the project after the edit, so redo, and reopening a saved command log, rebuild the same project.", "quantifier": "all projects, all edits, all crash/reopen points between commands", "why_tests_cant": "Crash recovery quantifies over all histories.", "anchors": ["src/project.rs: ProjectCmd::redo", "serdo::undo_store (assumed)"]}
{"id": "C21", "title": "Undo/redo over whole histories", "statement": "For every interleaving of edits, undos and redos the project equals the one obtained by replaying the prefix of commands that is currently applied; k undos followed by k redos change nothing; a new edit discards the redo branch.", "quantifier": "all finite histories", "why_tests_cant": "Unbounded histories.", "anchors": ["src/project.rs: Project::undo, redo, can_undo, can_redo"]}
{"id": "C22", "title": "Stores stay sorted, unique and correctly keyed", "statement": "In every state reachable by edits, undo and redo, bars, tempos and pedals are strictly ordered by start tick with one item per tick, each item is stored under its own start tick, and notes are ordered by their sounding start.", "quantifier": "all reachable states", "why_tests_cant": "Invariant over unbounded histories.", "anchors": ["src/project.rs: ProjectImpl repos, Project ops, ProjectCmd::undo/redo"]}
{"id": "C23", "title": "Stale and colliding selections", "statement": "Undoing an edit leaves the project as before even when the edit deletes items that are not in the project or pastes several bars, tempos or pedals at one tick.", "quantifier": "all projects and selections", "why_tests_cant": "Stale selections are not exercised by tests.", "anchors": ["src/project.rs: Project::bulk_remove, bulk_add, ProjectCmd::undo"]}
{"id": "C24", "title": "Exporting and importing a project is lossless", "statement": "Converting a project to its exported form and back yields the same rhythm, key, bars, tempos, pedals and grid and the same bag of notes; importing any export then exporting it is stable.", "quantifier": "all projects and all exported documents", "why_tests_cant": "Round trip over all contents.", "anchors": ["src/project.rs: From<ExportedProject> for ProjectImpl, From<ProjectImpl> for ExportedProject", "src/exported_project.rs"]}
{"id": "C25", "title": "Bounded in-memory undo store behaves like two stacks", "statement": "For every sequence of add/undo/redo/freeze operations the store behaves as an undo stack and a redo stack limited to the capacity (oldest dropped first); can_undo/can_redo tell exactly whether undo/redo will return something; while frozen nothing is recorded; the number of stored commands never exceeds the capacity; iterating yields what can be redone (last first) and then what can be undone (next first). A capacity of zero behaves as one.", "quantifier": "all capacities and all operation sequences", "why_tests_cant": "Unbounded sequences; boundary at capacity.", "anchors": ["src/undo.rs: UndoStore"]}
{"id": "C26", "title": "Repeat marks on a bar stay consistent", "statement": "Any set of repeat marks built by adding marks one by one contains at most one numbered ending, never a numbered ending together with a repeat start/end, D.C. or D.S., and never a repeat start with D.C. or D.S.; adding reports the set of conflicting marks and leaves the set unchanged when refused, and adding a mark already present is accepted.", "quantifier": "all sequences of marks", "why_tests_cant": "All insertion orders.", "anchors": ["src/bar.rs: RepeatSet::try_add, RepeatSet::region_index, EventRepeat"]}
{"id": "C27", "title": "Acceptance of repeat marks does not depend on the order", "statement": "If a collection of marks can be put on a bar in one order it can be put in every order.", "quantifier": "all pairs of orders", "why_tests_cant": "Relational property over permutations.", "anchors": ["src/bar.rs: RepeatSet::try_add, dislike tables"]}
{"id": "C28", "title": "A score without repeat marks is played straight through", "statement": "If no bar carries a repeat mark the rendered playing order is the whole score from tick 0 to the end, once.", "quantifier": "all bar lists without marks", "why_tests_cant": "Every bar list.", "anchors": ["src/repeat.rs: render_region"]}
{"id": "C29", "title": "Simple repeats and numbered endings are played as notated", "statement": "For every score composed of plain passages, repeated passages and passages with numbered endings, the rendered order plays plain passages once, repeated passages twice, and for endings the common part before each ending in turn.", "quantifier": "all compositions of passages with arbitrary positive lengths", "why_tests_cant": "Structural induction over unbounded scores.", "anchors": ["src/repeat.rs: render_region, SequenceRegion, RepeatRegion, VariationRegion", "docs/repeat/order.md"]}
{"id": "C30", "title": "Da capo / dal segno with fine", "statement": "With D.C. or D.S. the first pass plays with repeats up to the mark; the second pass plays from the target without repeats (last ending only) up to Fine or, without Fine, the end of the score.", "quantifier": "all composed scores with a D.C./D.S. mark", "why_tests_cant": "Structural induction over unbounded scores.", "anchors": ["src/repeat.rs: render_region", "src/global_repeat.rs: GlobalRepeat, GlobalRepeatBuilder", "docs/repeat/order.md"]}
{"id": "C31", "title": "Coda jumps", "statement": "With two coda marks the second pass leaves at the first coda mark and continues at the second one.", "quantifier": "all composed scores with coda marks", "why_tests_cant": "As above.", "anchors": ["src/global_repeat.rs: GlobalRepeat::to_interval_set, GlobalRepeatBuilder::build"]}
{"id": "C32", "title": "Malformed repeats are reported", "statement": "Each malformed arrangement (unclosed repeat, ending out of order, duplicate D.C./D.S., D.S. without segno, odd number of codas, coda after D.C. etc.) is reported as the matching error for the bar concerned, and rendering never panics.", "quantifier": "all bar lists", "why_tests_cant": "All bar lists.", "anchors": ["src/repeat.rs: render_region, RenderRegionError", "src/global_repeat.rs: GlobalRepeatBuilder"]}
{"id": "C33", "title": "D.C. respects an upbeat bar as documented", "statement": "If the D.C. bar and the first (upbeat) bar together make up one full bar, D.C. returns to the very start; if the D.C. bar is full and the first bar is an upbeat, it returns to the bar after the upbeat.", "quantifier": "all time signatures and bar lengths", "why_tests_cant": "The documented rule compares two bar lengths; tests use one shape.", "anchors": ["src/global_repeat.rs: GlobalRepeatBuilder::on_bar, adding_dc, build", "docs/repeat/order.md"]}
{"id": "C34", "title": "Merging adjacent chunks does not change what is played", "statement": "The merging of adjacent playback chunks leaves the sequence of played ticks unchanged, never produces mergeable neighbours and is idempotent.", "quantifier": "all lists of chunks whose start is not after their end", "why_tests_cant": "All lists.", "anchors": ["src/repeat.rs: Chunk::optimize"]}
{"id": "C35", "title": "Accumulated tick index", "statement": "The chunk index maps every chunk to the number of ticks played before it.", "quantifier": "all chunk lists", "why_tests_cant": "All lists; overflow at 32 bits.", "anchors": ["src/repeat.rs: Chunk::by_accum_tick"]}
{"id": "C36", "title": "Start position maps to the requested occurrence", "statement": "Starting playback at tick t, iteration k gives the position in played time of the k-th occurrence of t, and otherwise reports how many occurrences exist.", "quantifier": "all chunk lists, ticks, iterations", "why_tests_cant": "Counting over unbounded lists.", "anchors": ["src/play_start_tick.rs: PlayStartTick::to_accum_tick", "src/play_iter.rs"]}
{"id": "C37", "title": "Tuplets keep the notes", "statement": "Making a tuplet of a selection returns the same notes with only start tick and tuplet denominator changed, in start order, beginning at the earliest start, all sharing one denominator.", "quantifier": "all selections", "why_tests_cant": "All selections; denominators are truncated to 8 bits.", "anchors": ["src/tuple.rs: tuplize", "src/project.rs: Project::tuplize"]}
{"id": "C38", "title": "Notes of a chord stay together in a tuplet", "statement": "Notes starting together before making a tuplet start together afterwards.", "quantifier": "all selections", "why_tests_cant": "Needs chords of all sizes.", "anchors": ["src/tuple.rs: tuplize"]}
{"id": "C39", "title": "Pasting shifts everything rigidly", "statement": "Moving a copied selection to a tick makes its earliest item start there and keeps all distances between items and all other attributes.", "quantifier": "all selections and ticks without 32-bit overflow", "why_tests_cant": "All selections.", "anchors": ["src/models.rs: Models::move_to_tick"]}
{"id": "C40", "title": "Clipboard text round trip and version check", "statement": "Text produced by copy is accepted by paste and gives the same selection; any text whose leading version number is not 1 is refused with that number; text with no value is reported empty.", "quantifier": "all selections and all texts", "why_tests_cant": "All texts.", "anchors": ["src/models.rs: to_clipboard_text, from_clipboard_text"]}
{"id": "C41", "title": "Validated text input always reflects the buffer", "statement": "After any sequence of edits the validated value equals the result of validating the current buffer.", "quantifier": "all edit sequences", "why_tests_cant": "Unbounded sequences.", "anchors": ["src/text_input.rs: TextInput"]}
{"id": "C42", "title": "Numeric text fields never crash", "statement": "Validating any text in a numeric field yields a value in the field's range or an error, and never panics.", "quantifier": "all strings", "why_tests_cant": "All strings.", "anchors": ["src/text_input.rs: Validated impls"]}
{"id": "C43", "title": "Location text round trip", "statement": "Parsing the displayed form of a location gives the same location; anything not of the form digits:digits is refused.", "quantifier": "all locations, all strings", "why_tests_cant": "All strings.", "anchors": ["src/location.rs", "src/text_input.rs: parse_location"]}
{"id": "C44", "title": "Interning returns a unique representative", "statement": "After any sequence of intern calls, equal values map to one shared instance which equals the argument, and existing instances never change.", "quantifier": "all call sequences", "why_tests_cant": "Unbounded sequences.", "anchors": ["src/fly_weight.rs: FlyWeight::intern"]}
{"id": "C45", "title": "Clipping", "statement": "A clipped value lies in [min,max], equals the input when that already lies there, and clipping is idempotent and monotone.", "quantifier": "all ranges and values", "why_tests_cant": "All values.", "anchors": ["src/clipper.rs"]}
{"id": "C46", "title": "Rate text/percent conversion", "statement": "A rate with three decimals survives conversion to a floating point rate and back. The floating point operations behind it round to the nearest binary32 number, ties to even, and conversion to an integer drops the fraction and saturates at 32 bits.", "quantifier": "all stored rates 0..2000; all quotients of integers; all finite values", "why_tests_cant": "Floating point rounding for each value.", "anchors": ["src/percent.rs: PercentU16::to_f32, From<f32>"]}
{"id": "C47", "title": "Note length with rate trimming", "statement": "The sounding length of a note is floor(written length * rate), is monotone in both, and never exceeds 3826 ticks.", "quantifier": "all notes with constructible rates", "why_tests_cant": "Whole domain bound, relied on by C17.", "anchors": ["src/note.rs: Note::tick_len", "src/percent.rs: PercentU16::apply", "src/trimmer.rs: RateTrimmer"]}
{"id": "C48", "title": "Dragging a tempo value saturates", "statement": "Dragging a tempo value by any amount gives the nearest legal value to old+delta.", "quantifier": "all values and deltas", "why_tests_cant": "Sign and width conversion.", "anchors": ["src/tempo.rs: Tempo::drag", "src/tempo.rs: TempoValue::up, TempoValue::down"]}
{"id": "C49", "title": "No passage is played more often than five times", "statement": "In every rendered playing order each tick is played at most five times, so the five selectable iterations address every occurrence.", "quantifier": "all bar lists that render", "why_tests_cant": "Bound over all scores.", "anchors": ["src/repeat.rs: render_region", "src/play_iter.rs: PlayIter"]}
{"id": "C50", "title": "Rendered chunks are well formed", "statement": "Every rendered chunk starts no later than it ends, lies within the score, and only the last one is open ended.", "quantifier": "all bar lists that render", "why_tests_cant": "All scores.", "anchors": ["src/repeat.rs: render_region, Chunk"]}
{"id": "C51", "title": "Whatever paste accepts fits its types", "statement": "Every selection that paste accepts, from any text at all, has valid pitches, loudness at most 127, tempos from 1 to 999, trimmers whose running totals fit 16 bits and length rates whose total is the one computed from the rates; so copying it and pasting it again changes nothing. The smaller ranges of channel, dots, numerator and key are not checked.", "quantifier": "all texts", "why_tests_cant": "All texts: a test can only paste the few texts somebody thought of.", "anchors": ["src/models.rs: from_clipboard_text", "src/exported_project.rs: from_clipboard_text", "src/note.rs, src/bar.rs, src/tempo.rs, src/ctrl_chg.rs, src/trimmer.rs, src/pitch.rs: Deserialize"]}
{"id": "C52", "title": "Commands record exactly what an edit did", "statement": "Setting the signature, key or grid records the old and the new value. Every other edit records the items it put in followed by the bars it completed, the items it took away followed by exactly those it overwrote, and the selection hint of that edit.", "quantifier": "all projects in order and all edits; for the overwritten items all legal edits", "why_tests_cant": "Tests check undo of a few edits; the recorded lists for all selections, collisions and completions are not covered.", "anchors": ["src/project.rs: ProjectCmd, ModelChangeMetadata", "src/project.rs: add_note, add_bar, add_tempo, add_dumper, add_soft, tuplize, bulk_remove, bulk_add, change"]}
{"id": "C53", "title": "A saved project opens unchanged", "statement": "The bytes written for a project are read back as the same project, whatever bytes follow, exactly when its data fit their types. It fails for trimmers whose running totals leave 16 bits (opening panics), a tempo of 0 and length rates finer than their stored percentages.", "quantifier": "all projects", "why_tests_cant": "All projects of any size and content.", "anchors": ["src/project.rs: ExportedProject, ProjectImpl (serde from/into)", "src/note.rs, src/bar.rs, src/tempo.rs, src/ctrl_chg.rs, src/trimmer.rs, src/pitch.rs, src/duration.rs: Serialize, Deserialize"]}
{"id": "C54", "title": "Whatever file opens is a sound project", "statement": "Every sequence of bytes that opens as a project gives stores in order whose keys are the start ticks of their items, with valid pitches, loudness, tempos, trimmers and length denominators; saving and opening it again changes nothing. Channel, dots, numerator and key are not checked.", "quantifier": "all sequences of bytes", "why_tests_cant": "All files, including damaged and hostile ones.", "anchors": ["src/project.rs: From<ExportedProject> for ProjectImpl", "src/pitch.rs, src/tempo.rs, src/velocity.rs, src/duration.rs: Deserialize"]}
{"id": "C55", "title": "A stored session can be reopened", "statement": "After any legal edits of data that fit their types, undos and redos, opening the saved base project and the stored commands gives the same commands, the same position and the same current project. If the program stopped when only some commands at the beginning of the log had been stored, with any position among them, what is opened is a session the user can have had with those commands and that position. A trimmer with a running total beyond 16 bits, which the constructors allow, makes the stored session unreadable for good.", "quantifier": "all sessions, all points at which storing may have stopped", "why_tests_cant": "All interleavings of edits, undos and redos with all data.", "anchors": ["src/project.rs: ProjectCmd, impl SerializableCmd, impl Cmd", "src/project.rs: ProjectImpl"]}
{"id": "C56", "title": "Truncated files are refused", "statement": "A saved project or stored command cut short at any byte is refused with an error: it is not opened, and nothing panics.", "quantifier": "all projects and commands whose data fit their types, all cuts", "why_tests_cant": "All positions of all files.", "anchors": ["src/project.rs: ExportedProject, ProjectCmd (derived Deserialize)"]}
{"id": "C58", "title": "The total of a rate trimmer is the product of its rates", "statement": "The total of four stored rates is their product, at most 200 %, rounded down to a thousandth; floating point errors move the product by less than one part in two million before rounding. A single rate other than 100 % is the total itself, except for ten rates which lose a thousandth. Four rates of 100 % change no length.", "quantifier": "all four rates of 0 to 200 % in thousandths", "why_tests_cant": "There are 2001^4 combinations, and the rounding of three multiplications in 32 bits is not visible in a handful of examples.", "anchors": ["src/trimmer.rs: RateTrimmer::from_array, RateTrimmer::new", "src/percent.rs: from f32, to_f32"]}
{"id": "C59", "title": "A rate trimmer survives saving and reloading", "statement": "A rate trimmer reloaded from its four stored percentages is the same trimmer. It holds for rates that are stored exactly; it is false for finer or larger rates: 0.25 and 3 have a total of 75 % before and 50 % after reloading.", "quantifier": "all rates", "why_tests_cant": "All combinations of four floating point numbers.", "anchors": ["src/trimmer.rs: RateTrimmer::new, RateTrimmer::from_array, Serialize, Deserialize"]}
{"id": "C60", "title": "Constructors and conversions accept exactly the legal values", "statement": "Dots 0 to 7, denominators from 2, channels 0 to 15, tempos up to 999, endings 1 to 4, octaves -2 to 8 and note values 0 to 7 are accepted as they are and all else refused or, as documented, brought into range; next/previous, up/down and conversion to a number undo each other; a trimmer holds its four values with their sum; all defaults are legal.", "quantifier": "all numbers", "why_tests_cant": "Tests look at a boundary here and there; the claim is about every number on both sides of every boundary.", "anchors": ["src/duration.rs: Numerator::from_ord, Denominator::from_value, Dots::from_value", "src/channel.rs: new", "src/tempo.rs: TempoValue::new, safe_new, Tempo::new, up, down", "src/velocity.rs: new", "src/bar.rs: VarIndex", "src/octave.rs: value_of, Add", "src/trimmer.rs: new, from_vec, value, to_vec", "src/play_iter.rs: new, set_iter", "Default impls"]}
{"id": "C61", "title": "What is shown can be read back", "statement": "Exactly the texts writing a number of 1 to 2^32 - 1 are grids. The text shown for a grid, the numerator of a signature, the denominator of a length or a loudness is read back as the same value. Different marks, letters and signature denominators are shown differently. A refused grid text is given back in the error, which is false for zeros such as 00.", "quantifier": "all texts and all values", "why_tests_cant": "All texts.", "anchors": ["src/grid.rs: value_of, to_string", "src/rhythm.rs: Numerator Display, FromStr, Denominator::to_string", "src/duration.rs: Denominator to_string", "src/velocity.rs: Display", "src/bar.rs: Repeat Display", "src/solfa.rs: Display"]}
{"id": "C62", "title": "Equality and hashing of trimmers agree with their contents", "statement": "Two trimmers are equal exactly if all they hold is equal; equal ones have equal hashes; legal trimmers are equal exactly if their four values are. For rate trimmers the last is false: the same four stored rates may come with different totals.", "quantifier": "all trimmers", "why_tests_cant": "All pairs.", "anchors": ["src/trimmer.rs: PartialEq, Hash for Trimmer, PartialEq for RateTrimmer", "src/percent.rs: PartialEq"]}
{"id": "C63", "title": "Editing one aspect of a note leaves the others alone", "statement": "Moving a note by a staff step, changing its accidental, its dots, its note value, its length or its tie changes that aspect as specified and nothing else, fails exactly when the aspect cannot be changed, and keeps the note legal. A step up and down, dots added and taken away, and four presses of the tie button restore the note.", "quantifier": "all notes", "why_tests_cant": "All notes and all edits; tests check single notes and compare few fields.", "anchors": ["src/note.rs: up_score_offset, down_score_offset, with_duration, with_duration_numerator, add_dots, toggle_sharp, toggle_flat, toggle_natural, toggle_tie"]}
{"id": "C64", "title": "Builders make legal values", "statement": "A note builder makes a note with the values given and the default ones elsewhere, legal if those given are. For pitches it is false: a builder given only the letter C makes a pitch named C4 that sounds and is drawn as A4.", "quantifier": "all combinations of fields set", "why_tests_cant": "All combinations; no test uses the pitch builder.", "anchors": ["src/pitch.rs: #[derive(Builder)] Pitch", "src/note.rs: #[derive(Builder)] Note"]}
{"id": "C57", "title": "The documented structure rules hold in every rendered score", "statement": "A score is rendered only if it obeys the rules of docs/repeat/structure.md: at most one jump, Fine and Segno; a D.S. has one Segno; Segno before Fine; no Segno, Fine or Coda without a jump; no or two Codas, before Fine; at least two endings; a repeat may stand in the part common to endings. Where marks have no effect, removing them does not change what is played.", "quantifier": "all bar lists with distinct ticks in order", "why_tests_cant": "Every combination of marks on every number of bar lines.", "anchors": ["docs/repeat/structure.md:26-32,72", "src/repeat.rs: render_region", "src/global_repeat.rs: GlobalRepeatBuilder"]}
{"id": "C65", "title": "What an edit leaves in the project", "statement": "Setting the signature, key or grid changes only that setting. Any other edit leaves, at each tick, the last bar, tempo or pedal put in there, else what was there unless it was withdrawn; each note as often as before less withdrawn plus put in; then plain bars up to the end of the content. It fails only when the end of a note or the bars needed leave the 32-bit range, when bars have length zero or the tuplet cannot be computed, and it is refused exactly for a tuplet of fewer than two notes.", "quantifier": "all well-formed projects and all edits with 32-bit ticks", "why_tests_cant": "Unbounded projects and selections, with items present, absent, repeated or colliding.", "anchors": ["src/project.rs:571-830", "src/project.rs: replenish_bars, tuplize, bulk_add, bulk_remove, change"]}
{"id": "C66", "title": "The figures of the repeat documentation are played as drawn", "statement": "Each of the fourteen figures of docs/repeat/examples.md (repeats, endings, D.C. with and without Fine, upbeat and Codas, D.S.) is played, without warnings, in the order printed under it, whatever the lengths of the bars.", "quantifier": "all bar line positions below 2^32-1 and all time signatures", "why_tests_cant": "The unit tests fix one length for every bar; lengths, upbeats and signatures are unbounded combinations.", "anchors": ["docs/repeat/examples.md", "docs/repeat/order.md", "src/repeat.rs: render_region"]}
{"id": "C67", "title": "The clipboard text as a format", "statement": "Copying a selection writes exactly the documented JSON text after the version number 1, character by character. When reading, the members of every object may come in any order, unknown ones are ignored, none may be missing (but time signature and key of a bar) or come twice, an array of all values in order is read alike; after the text there may be white space and nothing else. A string within the text is read as the characters written there, in whichever of the ways JSON has (plain, short escape, \\uXXXX of either case, surrogate pair), and nothing else is a string (in a member that is skipped, half a surrogate pair will do, too).", "quantifier": "all selections; all JSON objects; all trailing texts", "why_tests_cant": "The texts are unbounded; a test copies a few selections and never reorders, repeats or drops members.", "anchors": ["src/models.rs:119-149", "src/exported_project.rs:5-50", "src/note.rs:29-43", "src/bar.rs:98-102", "src/bar.rs:223-230", "src/tempo.rs:76-81", "src/ctrl_chg.rs:4-10"]}
{"id": "C68", "title": "Percentages as text", "statement": "A rate is shown as the decimal fraction of its thousandths without needless zeros. The percent field reads decimal fractions, with or without sign and exponent, as the nearest binary32 number, and the words inf, infinity and nan in any case; any other text is refused. What is entered is stored rounded down to thousandths (the number rounded down may be off by one part in two million) and cut off at 0 and 200 %. What is shown is read back as the same rate.", "quantifier": "all rates of 16 bits; all texts", "why_tests_cant": "The texts are unbounded and decimal fractions are rounded to binary ones; only ten of 2001 rates come back changed.", "anchors": ["src/percent.rs:7-63", "src/text_input.rs:139-152"]}
{"id": "C69", "title": "A copy that follows the announced changes stays in step", "statement": "The five collections of a project announce every call that changes them. Whoever starts with a copy and follows the announced calls has the collections of the project after every edit, undo and redo; a refused edit announces nothing.", "quantifier": "all projects, edits, recorded commands and sequences of user actions", "why_tests_cant": "No unit test reads the announcements of a whole edit; histories are unbounded.", "anchors": ["src/project.rs:186-190", "src/project.rs:335-353", "src/project.rs:418-513", "src/project.rs:569-828"]}
{"id": "C70", "title": "The selection hint goes with the items it was given for", "statement": "An edit announces exactly the items it puts in, each with the hint the edit was given, then the bars it completes without a hint, and exactly the items it takes away. Undo announces the items it puts back with the recorded hint. Redo announces the same items with the same hints as the edit itself.", "quantifier": "all projects and all edits that succeed; all recorded commands", "why_tests_cant": "The hints are not read by any unit test; edits have unboundedly many items, and only edits that complete bars go wrong.", "anchors": ["src/project.rs:43-66", "src/project.rs:186-190", "src/project.rs:418-513", "src/project.rs:595-828"]}
{"id": "C71", "title": "Exactly the JSON texts of the format are pasted", "statement": "A text is pasted as a selection exactly if it is the version number 1 followed by one JSON value (RFC 8259, at most 127 arrays and objects within each other, no number beyond f64; neither limit holds inside unknown members, which are only skipped) that stands for this selection, with white space around. What stands for what is said member by member: names, number ranges, what may be left out, and that a tempo, velocity or denominator out of range is brought into range. The same holds for the importer of projects.", "quantifier": "all texts, all selections and all exported projects", "why_tests_cant": "There are infinitely many texts; the unit tests read seven of them.", "anchors": ["src/models.rs:7-22", "src/models.rs:128-149", "src/exported_project.rs:5-40"]}
{"id": "C72", "title": "Error messages name what is wrong", "statement": "The message of a rendering error contains exactly the bar positions and ending numbers concerned, all of them bar lines of the score, and different errors have different messages. A pitch error names a pitch out of range with its number, and an octave error the octave refused with the legal range. It is false for octaves, where the number shown is two too high, and for stepping down from the lowest C.", "quantifier": "all scores and errors of rendering; all pitches and edits; all octave numbers", "why_tests_cant": "No unit test looks at a message.", "anchors": ["src/octave.rs:9-17", "src/octave.rs:37-47", "src/pitch.rs:15-29", "src/pitch.rs:190-222", "src/repeat.rs:332-364"]}
{"id": "C73", "title": "The marks listed are the marks of the bar", "statement": "The macro for a set of repeat marks gives exactly the marks listed, or panics if one of them is refused by one listed after it; so the order of the list matters. The length of a set is the number of its marks, at most six for a set that can be built, and at most four with a numbered ending.", "quantifier": "all lists of marks; all sets", "why_tests_cant": "All lists and orders; the tests use a few lists that work.", "anchors": ["src/bar.rs:197-199", "src/bar.rs:208-220", "src/bar.rs: RepeatSet::try_add"]}
{"id": "C74", "title": "The jump builder keeps what it is told", "statement": "The builder of the global repeat accepts any calls with at most one D.C. or D.S., one Fine, one Segno and two Codas, in any order, and holds what was told; otherwise the first call too many is refused with the positions in conflict. A D.C. without Segno and Codas goes back to the beginning if the first bar is complete, alone or with the last, and behind it otherwise, up to the Fine. With a Segno a D.C. does what a D.S. does, but for a warning and for a single Coda.", "quantifier": "all sequences of calls", "why_tests_cant": "All call sequences; the tests use a handful.", "anchors": ["src/global_repeat.rs:75-146", "src/global_repeat.rs:209-294"]}
{"id": "C75", "title": "Without overflow checks nothing changes where the checks pass", "statement": "Whatever a function returns in the build with overflow checks, it returns in the build without them, errors and other panics included: pitches, lengths, tempos, trimmers, the grid, notes, tuplets, locations, edits, whole editing sessions, the rendering of repeats, and start positions. So all other theorems hold for both builds except where they speak of an overflow.", "quantifier": "all inputs; all sessions", "why_tests_cant": "Tests run in the build with checks only; the claim compares two builds on all inputs.", "anchors": ["Cargo.toml", "src/pitch.rs", "src/octave.rs", "src/duration.rs", "src/trimmer.rs", "src/note.rs", "src/tempo.rs", "src/grid.rs", "src/tuple.rs", "src/project.rs", "src/repeat.rs", "src/play_start_tick.rs"]}
{"id": "C76", "title": "What happens without overflow checks where they would stop", "statement": "Where the checked build stops with an overflow, the build without checks still gives the right result. Locations are exact modulo 2^64, trimmer totals modulo 2^16, start positions modulo 2^32; pitches, dots and tempos are always exact or refused; the bars are completed modulo 2^32. A D.C. after a first bar of 2^31 ticks or more goes back to the end of that bar.", "quantifier": "all inputs that overflow", "why_tests_cant": "The tests run with overflow checks, so that these cases do not occur at all.", "anchors": ["src/project.rs:location_to_tick", "src/project.rs:replenish_bars", "src/trimmer.rs:40-160", "src/note.rs", "src/grid.rs", "src/play_start_tick.rs"]}
{"id": "C77", "title": "Counting letters and octaves", "statement": "Adding a number to a letter or an octave (`+=`) gives the one that many places further up, subtracting it (`-=`) the one that many places further down, and both panic if there is none.", "quantifier": "every letter, every octave, every 32-bit number of either sign", "why_tests_cant": "The tests add and subtract 1, 2 and 3 only; there are 2^32 numbers, and negative ones behave differently.", "anchors": ["src/solfa.rs:9-27", "src/solfa.rs:56-64", "src/octave.rs:37-47", "src/octave.rs:70-80"]}
{"id": "C78", "title": "What a refused number field says", "statement": "A text field for a number that refuses its text says why: a number outside the range of the field is reported as out of range, any other text as no number.", "quantifier": "every text, the fields for trimmer values, loudness, tempo, numerator of a signature, denominator of a length", "why_tests_cant": "No test looks at the error of a field; there are infinitely many texts, and the interesting ones mix digits, signs, leading zeros and other characters.", "anchors": ["src/text_input.rs:67-152", "src/rhythm.rs:18-47"]}
{"id": "C79", "title": "Only marks decide the order of play", "statement": "The order of play, the warnings and the errors of a score depend only on its marks and their bar lines: keys and time signatures do not matter (except, for a D.C. without Segno, the opening time signature), a bar line without marks does not matter, and an edit that touches no bar line leaves them alone although it may append bars.", "quantifier": "all scores, all projects in order, all edits", "why_tests_cant": "A claim about pairs of arbitrary scores: the unit tests render single small scores.", "anchors": ["src/repeat.rs:366-500", "src/global_repeat.rs:143-294", "src/project.rs:335-353"]}
{"id": "C80", "title": "Editing in portions", "statement": "Adding notes, tempos and pedals in portions gives exactly the project that adding them at once gives, whatever bars are completed in between, and each way succeeds exactly if the other does; the order of the portions does not matter; deleting in portions is deleting at once; deleting what was just added restores everything but the completed bars.", "quantifier": "all projects in order, all selections and pairs of selections", "why_tests_cant": "A claim about pairs of sequences of edits on arbitrary projects: the unit tests check single sequences.", "anchors": ["src/project.rs:335-353", "src/project.rs:595-676", "src/project.rs:708-752"]}
{"id": "C81", "title": "Places keep their names", "statement": "Completing the bars, and every edit that puts in and takes out no bar line and does not set the time signature of the tune, leaves alone which tick each location (bar number and offset) denotes and the time signature and key in force at every tick; the location of a tick changes only from the first completed bar line on, by the new bars. A new bar line leaves the locations before it alone and raises the bar number of those after it by one.", "quantifier": "all projects in order, all edits, all locations and ticks", "why_tests_cant": "A claim about the state before and after arbitrary edits at every location: the unit tests look up a few locations in fixed projects.", "anchors": ["src/project.rs:211-297", "src/project.rs:335-353", "src/project.rs:595-752"]}
{"id": "C82", "title": "The order of play does not depend on the lengths of the bars", "statement": "Two scores with the same marks on the same number of bar lines, at ticks in the same order, are played alike whatever the lengths of their bars, keys and time signatures: the sections between the same bar lines in the same order, joined alike, with the same warnings, errors and panics about the same bar lines, as long as a D.C. goes to a Segno or to a first bar that in both scores compares the same way with a full one.  Everything that is played begins and ends at bar lines.", "quantifier": "all scores, all order-keeping ways of moving their bar lines, both settings of the interval library", "why_tests_cant": "A relation between the runs over every pair of scores of the same shape, error branches included; the unit tests render fixed scores one at a time.", "anchors": ["src/repeat.rs:33-52", "src/repeat.rs:92-505", "src/global_repeat.rs:60-294"]}
{"id": "C83", "title": "Changing things in two steps", "statement": "Notes, tempos and pedals that are changed in two steps end as they end when they are changed at once: the notes always (up to the order of notes at the same tick), tempos and pedals exactly if in between none was put in the place of one that was to stay.  Changed and changed back, they are as they were under the same condition; changed into themselves, always.  Bars completed on the way stay, and are the only difference to the bars of the change at once.", "quantifier": "all projects in order, all selections of notes, tempos and pedals, all values in between and in the end", "why_tests_cant": "An equivalence between two histories of edits over arbitrary selections and stopovers; the unit tests make single changes.", "anchors": ["src/project.rs:754-827", "src/project.rs:335-353"]}
{"id": "C84", "title": "Moving the whole tune", "statement": "If everything in a project (notes, bar lines, tempos, pedals, selected in any order) is dragged by the same number of ticks, later or earlier, then every tick changes by that number and nothing else changes; no bar is added.  Provided there is a bar line, everything ended by the last one, and no tick leaves the 32-bit range (for notes neither the written nor the played one).  In the moved tune, tempo, pedals, time signature and key are at every tick what they were where it came from, every tick keeps its bar number and its distance from the bar line, and the bars are played in the same order (bar lines not at tick 0, and a D.C. without Segno under the proviso of C82).  Dragged back, the tune is what it was.", "quantifier": "all projects in order with valid notes and tempos, all distances in both directions, all orders of selection, all ticks, all scores", "why_tests_cant": "An invariance of all edits, queries and of the order of play under all translations; the unit tests drag single things.", "anchors": ["src/project.rs:754-827", "src/note.rs:140-148", "src/bar.rs:244-249", "src/tempo.rs:100-106", "src/ctrl_chg.rs:17-22", "src/project.rs:335-353"]}
{"id": "C85", "title": "Cutting and pasting is dragging", "statement": "Copying a selection to the clipboard, deleting it, and pasting the clipboard text so that it begins at a tick makes of the project exactly what dragging the selection to that tick makes of it, for any selection whose values fit their types, whatever it lands on and wherever a drag can bring it (the distance of a drag has 32 bits, and the drag of a note of an extreme pitch panics, C03); if the one panics when the bars are completed, so does the other.  Pasted where it was, the selection leaves the project as it was, but for the bars that are completed if there were too few.  The order matters: pasting first and deleting the selection afterwards can delete what was pasted.", "quantifier": "all projects, all selections whose values fit their types, all ticks, all drags of that selection", "why_tests_cant": "Relates four functions (clipboard text and its parsing, moving a selection to a tick, bulk deletion and addition) to two others (dragging, changing) over all selections; no unit test combines them.", "anchors": ["src/models.rs:54-92", "src/models.rs:119-160", "src/project.rs:708-752", "src/project.rs:754-827", "src/note.rs:140-148", "src/tempo.rs:100-106"]}
{"id": "C86", "title": "Playing jumps only from mark to mark", "statement": "Every score that can be played is played from tick to tick; where it goes on elsewhere, it leaves at a bar line with an End, an ending number, a Coda, a D.C. or a D.S., and goes on at the beginning, at a bar line with a Start, an ending number, a Coda or a Segno, or, for a D.C. without Segno, after the first bar.  Playing begins at one of the latter places and stops at the end of the score, at a Fine or at one of the former.  So no bar is ever cut: after a tick the next one is played unless there is a bar line between them, and before a tick the previous one.", "quantifier": "all scores that can be played, all ticks of their performance, both settings of the interval library", "why_tests_cant": "A statement about every pair of neighbouring ticks in the performance of every score; the unit tests compare the chunks of fixed scores.", "anchors": ["src/repeat.rs:92-341", "src/repeat.rs:366-505", "src/global_repeat.rs:60-294"]}
{"id": "C87", "title": "What is never heard", "statement": "Everything in a score that can be played is heard at least once, apart from what a D.C. or D.S. together with a Fine or Codas cuts off.", "quantifier": "all scores that can be played, all ticks, both settings of the interval library", "why_tests_cant": "A statement about every tick of every score.", "anchors": ["src/repeat.rs:92-341", "src/repeat.rs:366-505", "src/global_repeat.rs:60-294"]}
{"id": "C88", "title": "A mark does what it says and nothing else", "statement": "In a score that can be played: a Start and an End put on two bar lines of a passage that is played straight through (with no D.C., D.S. or ending number between them, and not at the very beginning if there is a jump) make exactly what is between them be played twice in place of once before the jump, and change nothing if the jump comes first. If there is a D.C. or D.S., a Fine (where there is none, behind the Codas) cuts the second pass off there, and two Codas (where there are none, behind the target of the jump and before the Fine) take out of the second pass what is between them. Nothing else that is played changes, the score can still be played, and the warnings are the same. A Fine before the second Coda makes the score be refused, and so do two Codas of which the first is at tick 0 or the second behind the Fine (with the interval library in one setting also a Fine at the second Coda, and a first Coda not behind the target of the jump), and nothing else does. A lone Coda is refused with a D.S.; with a D.C. it only gives a warning. Without a D.C. or D.S. a Fine and up to two Codas change nothing and give no warning.", "quantifier": "all scores that can be played, all bar lines, both settings of the interval library", "why_tests_cant": "It compares the performance of every score with that of the same score with a mark added.", "anchors": ["src/repeat.rs:92-341", "src/repeat.rs:366-505", "src/global_repeat.rs:60-294"]}
{"id": "C89", "title": "Tuplets made again, elsewhere, or of another selection", "statement": "Making a tuplet of a tuplet changes nothing, provided that no two of the notes started together before and none do afterwards. Moving the notes, and changing anything but their lengths, comes to the same before and after a tuplet is made of them, panics included, as long as no note comes to lie beyond the last tick. The order of the selection does not matter if no two notes start together.", "quantifier": "all selections of notes, all changes of notes that do not touch the lengths and move every note by the same number of ticks, all orders of the selection", "why_tests_cant": "It compares the tuplets of every selection with those of every changed one; the unit tests make a tuplet of fixed notes once.", "anchors": ["src/tuple.rs:6-190"]}
{"id": "C90", "title": "A Start begins afresh", "statement": "A score without D.C., D.S., Fine, Segno and Coda, cut at a bar line with a Start and without a number of an ending, can be played exactly if both parts can: the score up to that bar line, without the Start, and the bar lines from there on, with nothing but a Start on the first. What is played is then what is played of the first part up to the Start followed by what is played of the second from there on. A Start at tick 0 of such a score can be left out: with it the score can be played exactly if without it it can be played and begins with a repeat or with endings, and what is played is the same.", "quantifier": "all scores without marks for a jump and all their bar lines with a Start and no number", "why_tests_cant": "It relates every score, refused ones included, to the two scores it is cut into at any of its Starts; the unit tests render some scores one by one.", "anchors": ["src/repeat.rs:366-505"]}
{"id": "C91", "title": "Every moment of playing can be started from", "statement": "In every score that is rendered and indexed, every moment of playing is the start position of exactly one tick and iteration from 1 to 5 (if the moment and the tick together fit 32 bits); every start position given is a moment at which the tick asked for is played, and a later iteration of a tick is later. Whether neighbouring chunks are merged before the index is made changes no answer.", "quantifier": "all scores, all moments, all ticks and iterations", "why_tests_cant": "It connects rendering, chunks, merging, index and start position for all scores; the unit tests look at each of them for some lists of chunks.", "anchors": ["src/repeat.rs:33-74", "src/repeat.rs:286-318", "src/repeat.rs:366-500", "src/play_start_tick.rs:16-37", "src/play_iter.rs:1-33"]}
{"id": "C92", "title": "A score is played bar by bar", "statement": "Every score that can be played is played as a sequence of whole bars, and there is only one such sequence. It is the sequence of every score with the same marks on bar lines at other ticks (a D.C. without Segno under the proviso of C82). To start in a bar when it is played the k-th time is to start after the bars played before, as far into it as the tick asked for, and a tick is played as often as its bar, at most five times.", "quantifier": "all scores, all moves of their bar lines that keep the order, all ticks and iterations", "why_tests_cant": "The sequence of bars is claimed for all scores with the same marks at once, and the start positions for all of them; the unit tests compare chunks of single scores.", "anchors": ["src/repeat.rs:62-74", "src/repeat.rs:286-318", "src/repeat.rs:366-500", "src/play_start_tick.rs:16-37"]}
{"id": "C93", "title": "An editor that reads the queues and clears them misses nothing", "statement": "clear_model_events leaves the project as it is and every queue of events empty. An editor that reads the five queues each time before it clears them, and follows what it has read on a copy of the collections, has the collections of the project whatever edits, undo and redo happen in between. If the undo store keeps its commands when it is cleared, reading and clearing has no effect on what undo and redo do, and every announced change is read once and in order, whatever the moments of reading; if it drops them, there is nothing to undo after clearing.", "quantifier": "all projects, all sequences of edits, undo, redo and clearing", "why_tests_cant": "No unit test of the repository clears the queues; the claim is about all interleavings of edits and clearing.", "anchors": ["src/project.rs:849-857", "src/project.rs:860-883", "src/project.rs:400-404"]}
{"id": "C94", "title": "A D.C. or D.S. does what it says and nothing else", "statement": "Put a D.S. and its Segno, or a D.C., on bar lines of a score that has no jump, with the jump not in the midst of a repeat or of endings, the Segno not within an ending other than the last, and nothing marked at tick 0: the score is still accepted, without a warning. What was played before the tick of the jump is still played; then, in place of what was behind it, every passage once (of endings the last) from the Segno, or from the place C33 says, up to Fine or the end, leaving out what is between two Codas. In the midst of a repeat or of endings that are not the first of the score a D.C. or D.S. is refused, and so is a Segno within an ending other than the last; in the first passage of the score a jump is only refused within the endings, behind the bar line where the first of them begins. Apart from these places only a lone Coda (with a D.S.), Codas that do not fit or, for a D.C., a first bar of 2^31 ticks make the marked score be refused. Such a D.C. plays what a D.S. with the Segno written at the place the D.C. goes back to plays (docs/repeat/order.md: the implicit Segno), provided there is a bar line there. With a Segno in the score a D.C. plays what a D.S. plays, with a warning.", "quantifier": "all scores without a jump, all places of Segno, D.S. and D.C.", "why_tests_cant": "The unit tests have single scores with a jump and never compare a score with and without it.", "anchors": ["src/repeat.rs:366-500", "src/repeat.rs:286-318", "src/global_repeat.rs:209-280"]}
{"id": "C95", "title": "Numbered endings do what they say and nothing else", "statement": "Put a Start on a bar line of a plain passage, and the numbers 1 to at most 4 on the bar lines behind it up to some bar line e of the passage: the score is still accepted, with the same warnings, and what was played once from the Start to e is played as the part before the endings followed by the first, then that part followed by the second, and so on. If the score has a D.C. or D.S. behind the endings that is so before the jump; after the jump the endings other than the last are left out. With the jump before them, what is played before the jump is unchanged. Nothing else changes. Provided that the bar lines from the Start to e carry no numbers of their own and those between no jump, that no Segno is in an ending other than the last, and with a jump that the Start is not at tick 0.", "quantifier": "all scores, all plain passages of them, all places of the Start and of one to four endings", "why_tests_cant": "The unit tests have single scores with endings and never compare a score with and without them.", "anchors": ["src/repeat.rs:366-500", "src/repeat.rs:216-341"]}
{"id": "C96", "title": "A session of ordinary edits never panics", "statement": "Call a project ordinary if it is in order, its time signatures are ones the constructor accepts, its notes have lengths, rates and trimmers the public constructors build, and its notes, tempos and pedals are at tick 4290000000 at the latest (bars may be anywhere). Starting from an ordinary project, such as the new one, any sequence of edits of ordinary items (adding, removing and changing any items, setting the time signature, key and grid, making tuplets), undo and redo, however long, runs without a panic, and every project on the way is ordinary, so that the tempo, the pedals, the time signature and the key at any tick, the location of a tick, the tick of a location and the end of the last note can be had without a panic. The only edit refused is a tuplet of fewer than two notes. A tuplet is of at most 1000 notes starting at tick 4287000000 at the latest, the number of whose members is below 2 or leaves at least 2 when divided by 256.", "quantifier": "all ordinary projects, all sequences of ordinary edits, undos and redos, all ticks and locations", "why_tests_cant": "Each unit test makes a few edits; that no sequence of edits, undos and redos leads to a project which a later edit cannot handle needs an invariant kept by the project and by all recorded commands.", "anchors": ["src/project.rs:192-407", "src/project.rs:418-512", "src/project.rs:570-830", "src/tuple.rs:6-190"]}
{"id": "C97", "title": "The merged chunks of a score are the fewest that play it, and are determined by what is played", "statement": "The list of chunks that a playable score is rendered to, after merging, is the only list with the fewest chunks that plays the same ticks in the same order. Hence two scores that play the same have the same merged chunks and the same index of start positions, however they are written.", "quantifier": "all playable scores, all lists of chunks", "why_tests_cant": "The tests compare the merged chunks of some scores with expected lists; that no shorter list plays the same is a statement about all lists, and that merging forgets how the score is written is one about all pairs of scores.", "anchors": ["src/repeat.rs:33-52", "src/repeat.rs:62-74", "src/repeat.rs:287-309", "src/repeat.rs:367-500"]}
{"id": "C98", "title": "What is copied or saved tells what it was made of", "statement": "Two selections have the same clipboard text exactly if they are equal but for the totals of the rates of their notes; the same holds of saved projects (with the notes in the same order) and of recorded commands, and no saved project or command is the beginning of a different one. This includes everything the constructors allow that does not survive the round trip, such as a tempo of 0 or slots whose sum is too large. The exception is real: notes made with the rates 1/4 and 3 or with 1/4 and 2 have different lengths and the same text.", "quantifier": "all pairs of selections, projects and commands that the constructors allow, all continuations of their bytes", "why_tests_cant": "The tests save some projects and read them back; that no two different ones share a text or a file is a statement about all pairs, including data for which reading back fails.", "anchors": ["src/models.rs:7-14", "src/models.rs:111-127", "src/project.rs:69-88", "src/project.rs:409-415", "src/note.rs:29-43", "src/trimmer.rs:8-15", "src/trimmer.rs:121-128", "src/pitch.rs:31-44", "src/duration.rs:132-138", "src/bar.rs:98-102", "src/bar.rs:223-230", "src/tempo.rs:76-81", "src/ctrl_chg.rs:4-10"]}
{"id": "C99", "title": "How often everything is heard", "statement": "In a score that can be played every tick belongs to exactly one passage. Without a D.C. or D.S. it is heard exactly once if the passage is plain, twice if it is repeated, before numbered endings as often as there are endings, and once within an ending; asking playback to start at a later hearing than there is reports exactly that number. With a D.C. or D.S. the ticks before it are heard that often, and those of the second pass (from its target to the Fine or the end, without what the Codas or endings leave out) exactly once more; if it stands in the midst of a repeat with which the score begins, only the second pass is heard.", "quantifier": "all scores that can be played, all ticks, all requested iterations, both settings of the interval library", "why_tests_cant": "The tests render some scores with a few marks; an exact count for every tick of every combination of repeats, endings and jumps is a statement about all scores.", "anchors": ["src/repeat.rs:92-341", "src/repeat.rs:366-505", "src/global_repeat.rs:60-294", "src/play_start_tick.rs:22-35", "src/play_iter.rs:9-20"]}
