# Formal model of ruimo/klavier-core

## 1. Method

The model is a set of small total computable Lean 4 functions, one per Rust
function, in `lean/Verif/Model/*.lean`.  Each definition carries the `/repo`
file and lines it models.  Specifications that do not use model helpers are in
`lean/Verif/Spec/*.lean` (or, when one line long, in the theorem statement).
Helper lemmas are in `lean/Verif/Lemmas/*.lean`; the theorems listed in
`MANIFEST.json` are in `lean/Verif/Props/*.lean`, one file per topic, each with
a non-vacuity `example` beside it.

Conventions of the model:

* Rust integers are `Nat`/`Int` with explicit bounds.  `as` casts are explicit
  modular functions.  Arithmetic that can overflow is checked and gives
  `Except.error Panic.overflow` (Rust with overflow checks, i.e. debug builds;
  in a release build the same inputs wrap silently.  `Model/Release.lean` models
  that build, and C75 proves that every result of the checked build other than an
  overflow is the result of both).
* A panic (`panic!`, `unwrap` on `Err`/`None`, index out of bounds, overflow,
  division by zero) is `Except.error p` with `p : Panic`.  A Rust `Result` is a
  nested `Except`, so "returns Err" and "panics" are different outcomes.
* Loops are structural recursions or carry an explicit proof of termination;
  a loop which may not terminate in the code is given fuel and answers
  `Panic.diverge` when the fuel is used up.  The theorem says which inputs make
  the fuel suffice.
* Iterator chains are written as list functions in the order of the code.
  `Rc<T>` is `T`, a mutable `self` is an extra result.

Names of theorems: `Cnn_name` is proved in full; `Cnn_name_partial` proves a part
of the claim or the claim under a proviso; `Cnn_name_false` proves the negation of
the claim as stated, by a concrete witness in the model.

## 2. Trusted base

* Lean 4.33.0's kernel, and the axioms `propext`, `Classical.choice`,
  `Quot.sound` (per theorem: section 6).  No axiom of our own, no `sorry`, no
  `native_decide`; Mathlib is not imported.
* The hand translation from Rust to Lean (definitions in `Verif/Model`).
* The behaviour assumed of external crates, none of which is in `/repo`:
  * `klavier_helper::store::Store`: a vector of key/value pairs strictly sorted
    by key; `add` inserts or overwrites and returns the overwritten value;
    `bulk_add` adds one by one and returns the overwritten pairs; `remove`
    removes the key if present; `change` first removes every `from` key, then
    adds every `to` pair and returns the pairs overwritten by the additions;
    `find`/`index`, `range`, `peek_last`, `iter` as their names say.
  * `klavier_helper::bag_store::BagStore`: a bag of values per key; `remove`
    removes one equal value if present.  Theorems speak of notes only up to
    permutation, so the order inside one key is not relied on.
  * `serdo::undo_store`: `add_cmd` runs `redo` and records the command,
    `mutate` records the command its closure returns (and nothing on `Err`),
    `undo`/`redo` run the command's method and move a cursor, a new command
    discards the redo tail, reopening replays the recorded commands on the
    saved base.
  * `intervallum`: an interval set of `u32` is a set of ticks, kept as its
    maximal intervals; union and intersection are those of sets (proved for the
    model).  What the crate does with a pair whose lower bound exceeds the upper
    one is not assumed: it is the parameter `ip` ("inverted panics"), and every
    theorem about rendering holds for both values.
  * `serde`, `serde_json`: derived structs are written as objects with the fields
    in declaration order, compact; unit variants as their name; newtype structs as
    their content; derived readers accept fields in any order, ignore unknown
    fields, refuse repeated and missing ones, and also accept a sequence;
    `StreamDeserializer` reads one value and stops; integers out of the range of
    the field are refused.  Whether a numeral is too large for `f64` is a
    parameter (`over`) over which every theorem is quantified.  The value of
    an ignored field is skipped as `ignore_value` does it: no limit on the nesting,
    no number too large, surrogates in strings not checked; everything else must be
    JSON.  Simplification: the `detail` text of an error is not modelled.  The limit of 128 nested
    values is modelled.
  * `bincode` 1 (`serialize`, `deserialize`): fixed size integers in little endian
    order, lengths as `u64`, variant numbers as `u32`, `bool` and the presence of
    an `Option` as one byte which must be 0 or 1, structs and tuples as their
    parts; bytes after the value are ignored.  A length for which there are not
    enough bytes is an error (not memory exhaustion).
  * `enumset` with the serde feature: written as the number of its bits, unknown
    bits ignored on reading.
  * `regex` with `^(\d+):(\d+)$`: `\d` is any Unicode decimal digit (an arbitrary
    predicate which holds of `0`..`9`).
  * `derive_builder` with `#[builder(default)]` on a struct: fields not set are those
    of the struct's `Default`.
  * `gcd`, `std` collections, `str::parse` of integers as documented; `f32` is
    exact rational arithmetic followed by rounding to nearest even
    (`Model/F32.lean`).  `f32` is read from and shown as text as documented: the
    nearest number, the shortest digits (`Model/RateText.lean`); C42 holds for any
    way of reading.

### Code that is modelled

| file | modelled |
|------|----------|
| `bar.rs` | all |
| `can_apply.rs`, `clipper.rs`, `channel.rs`, `velocity.rs`, `grid.rs`, `percent.rs`, `trimmer.rs` | all value functions |
| `ctrl_chg.rs`, `tempo.rs`, `note.rs`, `duration.rs`, `rhythm.rs` | all functions |
| `solfa.rs`, `octave.rs`, `sharp_flat.rs`, `key.rs`, `pitch.rs` | all functions, with the error texts |
| `fly_weight.rs`, `undo.rs`, `text_input.rs`, `location.rs`, `tuple.rs` | all |
| `global_repeat.rs`, `play_iter.rs`, `play_start_tick.rs`, `repeat.rs` | all |
| `models.rs`, `exported_project.rs` | building a selection, selection moves, copy, paste, version dispatch, the whole JSON text |
| `project.rs` | `ProjectImpl` queries and edits, `ProjectCmd` undo/redo, `ModelChangeMetadata`, `Project` edits, reading and clearing the queues, export/import, the bytes of projects and commands |

### Code that is not modelled

`Debug` texts that no `Display` uses; the events of the stores themselves (the calls that
queue them, reading and clearing are modelled); sqlite and file I/O of `serdo` (assumed: it keeps the bytes of the base project and of each command).
Without overflow checks, reading files and texts is modelled only in that trimmers are
made by `Release.trimmerFromArray`; what the crate `intervallum` does with intervals whose
ends have wrapped is not known, so rendering scores with a mark at tick 0 is only covered by C75.

### How the model is compared with the code

The code was not built or run.  Its 174 unit tests record what it does, and 166 of them
are transcribed as `example`s in `lean/Verif/UnitTests/*.lean` (those of `repeat.rs` by a
script), each with the name of the test; the kernel evaluates the model on the inputs of
the test and finds the asserted results, panics included.  These are tests of the model,
not proofs, and none is listed in `MANIFEST.json`.  The other eight (`range_*`, `range`,
`observe`, `as_ref` of `bar.rs`) exercise only the crate `klavier_helper`.

## 3. Properties: what is modelled and how it is proved

| id | modelled | how |
|----|----------|-----|
| C01-C05 | `solfa.rs octave.rs sharp_flat.rs key.rs pitch.rs` complete | exact decision logic; invariance by induction on operation chains; exhaustive case analysis of the (finite) enums |
| C06, C07, C47 | `duration.rs`, `rhythm.rs`, `percent.rs` apply, `note.rs` tick_len | closed formulas, bounds, monotonicity |
| C08, C09 | `trimmer.rs` Trimmer | carry loop against saturating addition; counterexample for C09 |
| C10, C11, C48 | `note.rs bar.rs tempo.rs ctrl_chg.rs velocity.rs` | exact characterisation, counterexamples for wrapping |
| C12 | `grid.rs` | nearest-multiple law |
| C13-C18 | `project.rs` ProjectImpl queries, `location.rs` | induction over sorted stores |
| C19-C24 | `project.rs` Project, ProjectCmd; `exported_project.rs`; serdo log | per-command inverse laws, then invariants over histories |
| C25 | `undo.rs` | refinement to two stacks |
| C26, C27 | `bar.rs` RepeatSet | invariant over add sequences; counterexample |
| C28-C33, C49, C50 | `repeat.rs`, `global_repeat.rs` | the region state machine against a grammar of scores with a denotational playing order |
| C34-C36 | `repeat.rs` Chunk, `play_start_tick.rs` | list induction against the flat played tick sequence |
| C37, C38 | `tuple.rs` | invariants of the two loops; counterexample |
| C39, C40, C51 | `models.rs`, `exported_project.rs` | rigid shift; version dispatch; JSON writer and reader down to characters |
| C41-C43 | `text_input.rs`, `location.rs` | parser/printer round trip over all strings |
| C44 | `fly_weight.rs` | history invariant |
| C45 | `clipper.rs` | order laws |
| C52 | `project.rs` edits, `ModelChangeMetadata` | the shape shared by all edits; exact list of overwritten items |
| C53-C56 | bincode bytes of `ExportedProject`, `ProjectCmd` and all parts | a calculus of readers: what is written is read whatever follows, every strict prefix is refused, whatever is read fits its type |
| C60-C64 | `Default`, `Display`, `FromStr`, `PartialEq`, `Hash` impls, small conversions, edits of single notes, generated builders | exact results; finite enumerations |
| C65 | all editing methods of `Project` | the store lemmas of C19-C23 with the completion of bars of C18 |
| C66 | `render_region` on the figures of docs/repeat | C29-C31 on each figure, with bar lines at arbitrary ticks |
| C67 | the text written by `to_clipboard_text`, `Deserialize` of all data types | a text function independent of the JSON trees; a struct reader is determined by the value of each field |
| C68 | `percent.rs` `to_string`, `text_input.rs` percent field, `f32` to and from text | the text is the shortest that is read back; nearest binary32 number to a decimal fraction |
| C69 | `project.rs` calls on the collections in edits, undo, redo | a copy follows the calls; induction on the session |
| C70 | the same, `ModelChangeMetadata` | what the calls say is added and taken away, with which hint |
| C71 | the whole of `from_clipboard_text` | the grammar of RFC 8259 as inductive relations; induction on the fuel of the reader, recursion on derivations |
| C72 | `Display` of `OctaveError`, `PitchError`, `RenderRegionError` (a derived `Debug`) | the numbers that stand in a text, read by a scanner that knows nothing of the errors; injectivity by cutting at separators |
| C73 | `bar.rs` `repeat_set!`, `len` | which lists are refused, by a relation on pairs; counting |
| C74 | `global_repeat.rs` builder | the calls as a sequence, the result read off the list of calls |
| C75, C76 | every function with checked arithmetic, with wrapping arithmetic instead; masked shifts | agreement is preserved by sequencing and recursion; exact results modulo powers of two |
| C77 | `solfa.rs`, `octave.rs`: `+=`, `-=` | cases over the letters and octaves, linear arithmetic for the number |
| C78 | `text_input.rs`, `rhythm.rs` `Numerator::from_str`: the errors | induction on the digits read so far, against the first digits of the text that exceed the range |
| C79 | `repeat.rs`, `global_repeat.rs`, edits of `project.rs` | simulation: two runs of the rendering loop whose builders differ only in what is not read |
| C80 | edits of `project.rs` | least number of completed bars, characterised by what is covered; lookups in the stores |
| C81 | `project.rs` `location_to_tick`, `tick_to_location`, `rhythm_at`, `key_at`, edits | the start of bar n is the same function before and after; counting the bar lines up to a tick |
| C82 | `repeat.rs`, `global_repeat.rs` rendering | a map of ticks that keeps the order on the bar lines carries every outcome over; proved by relating the two runs step by step |
| C83 | `project.rs` `change`, `replenish_bars` | stores compared key by key, notes by counting; the least number of bars that covers the content |
| C84 | `project.rs` `change`, the `drag` functions, the queries; rendering through C82 | the stores are compared key by key with the translated ones; the rest follows from C16, the splitting of the bars and C82 |
| C85 | `models.rs` clipboard and `move_to_tick`; `project.rs` `bulk_remove`, `bulk_add`, `change`; the `drag` functions | both ways remove the selection, add the same moved things and complete the bars |
| C86 | `repeat.rs`, `global_repeat.rs`, through the complete semantics of C29 and C30 | the passages are walked through: every step within a passage or between two is to the next tick or from mark to mark |
| C87 | the same | membership in the first and the second pass |
| C88 | Spec/Adding, Lemmas/Adding, Props/Adding | the reading of the score with the two marks is the old one with a plain passage cut in three; Fine and Coda leave the reading as it is |
| C89 | Spec/TupleAgain, Lemmas/TupleAgain, Props/TupleAgain | sorting, grouping and placing commute with the change; when no two notes start together every group is one note, and only the written lengths count |
| C90 | Spec/Afresh, Lemmas/Afresh, Props/Afresh | in each state of the loop a Start is accepted exactly if the same bar line without it leaves a state in which the score may end, and what is pending is then closed there; a Start at tick 0 opens what is open anyway |
| C91 | Lemmas/Moments, Props/Moments | C49, C50, C35 and C36 put together for rendered scores; merging keeps the position of every hit and only moves the beginning of its entry back |
| C92 | Spec/BarByBar, Lemmas/BarByBar, Props/BarByBar | C82 says that chunks lie between the same bar lines whatever their ticks; a chunk between bar lines is the bars between them, and C91 gives the positions |
| C93 | Model/Listen, Spec/Listen, Props/Listen | induction over what the editor does, with C69 for each user action; the unknown behaviour of `irreversible_mutate` is a parameter |
| C94 | Spec/Adding, Lemmas/AddJump, Lemmas/ImplicitSegno, Props/AddJump | a jump outside of repeats does not change what the score reads as, so C29 gives what is played without it and C30 what is played with it; refusal by reading the score with the jump taken off again; the two kinds of jump compared by cutting what is played at the jump |
| C95 | Spec/AddEndings, Lemmas/AddEndings, Props/AddEndings | the marked bar lines read as one passage with endings in place of a part of a plain passage (`reads_replace`, shared with C88); C29 and C30 give what is played; the second pass by the set of ticks left out |
| C96 | Spec/Ordinary, Lemmas/Ordinary, Props/Ordinary | an invariant of the project and of every recorded command (what it added and what it removed); each edit by C65, the bars by C18, tuplets by C37 with a bound on how far a note moves |
| C97 | Spec/Fewest, Lemmas/Fewest, Props/Fewest | chunks that play something and do not run on into the next are determined by what they play (induction over both lists); dropping the silent chunks of any list and merging gives the same list, which is no longer; which scores are left with silent chunks by the passages they read as |
| C98 | Spec/Stored, Lemmas/Stored, Props/Stored | codes that agree, whatever follows, mean the same and end together: kept by joining, options, vectors, variants; JSON text is one-to-one since reading inverts it; the encodings by their fields |
| C99 | Spec/Times, Lemmas/Times, Props/Times | a tick is counted in its own passage only, since passages follow each other; per passage the copies are counted; the second pass plays nothing twice |
| C46, C58, C59 | `percent.rs` f32 conversions, `trimmer.rs` RateTrimmer | exact rational model of binary32 rounding; relative error bounds for products |

## 4. Findings

Each item is proved in the model; the theorem is in brackets.  "Panics" means in a
build with overflow checks when the cause is arithmetic.

Values

* `Octave::value_of(9)` panics by index instead of returning the error
  [`C03_octave_nine_panics`].
* `Solfa += n` with a negative `n` stops at C without a word, and `-= n` at B, while the
  same moves written the other way round panic [`C77_letter_false`].
* A double flat in octave 8 is a legal pitch although its staff position is 75:
  moving it by 0 steps fails, dragging it panics [`C03_zero_false`].
* Ranges are not checked when deserialising: 32 dots or more make the length
  panic [`C06_bad_dots_panic`], a grid of 0 makes snapping divide by zero
  [`C12_zero`]; channel, numerator and key likewise [`C51_ranges_false`].
* `Trimmer::from_array` (used on reload) adds up in 16 bits, `added` in 32: a legal
  trimmer panics on reload [`C09_roundtrip_false`, `C40_trimmer_false`].
* `TempoValue` 0 is accepted by `new` and `safe_new` but becomes 1 on reload
  [`C40_tempo_false`]; `Tempo::drag` below 0 jumps to 999 and to 0 gives the
  illegal 0 [`C48_drag_false`].
* A start tick beyond 2^32 wraps in `start_tick`, `with_tick_added` and `drag`;
  `drag` also wraps below 0 [`C10_start_false`, `C11_wrap_false`,
  `C11_drag_false`].
* Ten of the 2001 rates with three decimals lose a thousandth when converted to
  `f32` and back [`C46_rate_false`].  So the field shows 1.004 and reads it as
  1.003 [`C68_roundtrip_false`].
* `RateTrimmer::new` keeps a total computed from unrounded rates, which a reload
  does not reproduce [`C40_rate_false`, `C59_reload_false`].
* `PitchBuilder` lets a pitch keep the cached numbers of A4 under another name
  [`C64_pitch_false`].
* Rate trimmers with the same four stored rates can differ [`C62_rate_false`].

Repeat marks

* Whether `RepeatSet::try_add` accepts marks depends on their order
  [`C27_order_false`; exactly for D.C. with D.S. and Segno with D.C. or an ending:
  `C27_every_iff`]; adding a mark that is already there can be refused
  [`C26_readd_false`].
* The documented upbeat rule of D.C. is not what is computed: the length passed
  is that of the first bar, not of the D.C. bar [`C33_documented_false`].  Hence figure 8-1 of the documentation is played as drawn
  only if the upbeat is half a bar, and figure 8-2 only if it is not
  [`C66_fig8_1_false`, `C66_fig8_2_false`].
* A D.C. that goes back into a first ending, or one with a lone Coda, is accepted where
  a D.S. with the Segno at the same place is refused; otherwise the two are the same, as
  the documentation says [`C94_dc_as_ds_proviso`, `C94_dc_as_ds_iff`].
* An ending number missing on a later bar of an ending is not noticed: the endings
  are then played one after the other [`C66_unmarked_false`].
* A D.C. within a first passage repeated without Start mark loses the first pass
  or panics with "Logic error" [`C30_inside_false`, `C30_inside_endings_false`].
* Marks at tick 0 together with D.C./D.S. underflow `start - 1`
  [`C30_mark_at_zero_false`].  A Coda at tick 0, a first bar of 2^31 ticks and a
  wrong index after four endings panic as well [`C32_panics_false`].
* The errors FineWithoutDsDc, SegnoWithoutDs, CodaWithoutDsDc,
  RepeatOrVariationOnDc, RepeatOrVariationOnDs and FineNotAfterSegno exist but are never raised.
* So several rules of docs/repeat/structure.md are not enforced: a Segno after Fine
  (nothing follows the D.S. then), marks without a jump, a lone Coda with a D.C., one
  ending only [`C57_segno_after_fine_false`, `C57_idle_marks_false`,
  `C57_dc_marks_false`, `C57_one_ending_false`].  A repeat in the part common to
  endings is documented as supported, but the endings are then ignored without a
  word [`C57_repeat_in_common_false`].

Playback position

* Empty chunks share their key in the accumulated index; harmless [`C35_index`].
  More than 2^32 played ticks panic [`C35_long_panics`].
* `to_accum_tick` adds before subtracting and can overflow although the answer
  fits [`C36_overflow_false`].

Projects

* Undoing the deletion of items that were not in the project adds them
  [`C23_stale_false`]; pasting two bars (tempos, pedals) at one tick cannot be
  undone [`C23_duplicate_false`]: the last but one of them is left behind. Exactly
  when undoing restores the project: `C23_restored_iff`.
* A note whose trimmer total leaves 16 bits can be added and saved, but the saved
  project and the stored session panic when opened, even after the note has been
  undone [`C53_trimmer_false`, `C55_trimmer_false`]; a tempo of 0 comes back as 1
  [`C53_tempo_false`], fine length rates with another total [`C53_rate_false`].
* An edit that completes bars announces them without a selection hint, redo of the same
  edit announces them with the hint of the edit [`C70_redo_false`].
* Files are not checked for channel, dots, numerator and key [`C54_unchecked`].
* `location_to_tick` panics/wraps for offsets near 2^64 [`C15_overflow_false`].
* A time signature 0/n from a hand-edited file makes bar completion loop forever
  [`C18_complete`].
* `UndoStore` with capacity 0 behaves as one with capacity 1 [`C25_zero_capacity`].

Without overflow checks (the default for release builds)

* Adding a tempo at tick 2^32 - 1 to a new project never ends: the start of the next bar
  wraps and never reaches the last tick [`C76_hang_false`, `C76_hang_partial`].
* A note that ends after 2^32 ticks counts as ending early, so that the bars up to it are
  missing [`C76_note_false`].  The second note of a tuplet near the end goes to the
  beginning [`C76_tuple_false`].
* A trimmer with a large total gets a total of the opposite sign when it is reloaded
  [`C76_trimmer_false`]; an offset near 2^64 leads to a tick before its bar
  [`C76_location_false`]; a tick near 2^63 snaps to a negative one [`C76_snap_false`].
* With a first bar of 2^31 + 480 ticks in 4/4 a D.C. goes back to the beginning instead of
  the end of the first bar [`C76_render_false`; otherwise right: `C76_render_partial`, `C76_render_right`].

Tuplets

* Notes of a chord are spread out [`C38_chord_false`, `C38_apart`].
* The note count is cast to `u8`: 256 notes panic, 258 are made a duplet
  [`C37_many_false`, `C37_truncated_false`].

Texts

* A signature numerator of 100 is reported as out of range but 256 as unreadable, and
  so is a length denominator of 256 [`C78_beyond_false`]; "40000x" in the trimmer field
  is reported as a number too large [`C78_junk_false`].
* "1000" in the tempo field panics and "0" is accepted [`C42_tempo_false`]; a
  location with a huge number or a non-ASCII digit panics [`C42_location_false`].
* The message of a refused octave gives a number two higher than the octave: octave -3 is
  refused with "Octave(-1) should -2 <= -1 <= 8" [`C72_octave_false`].  Stepping down from
  the lowest C says that this C is too low, with the number -1, which is not its number
  [`C72_pitch_false`].

Order of play

* A bar line without marks is not always silent: inside an ending it ends the ending, so
  that the next number is ignored without a warning [`C79_ending_false`], and before the
  first bar line it moves the place a D.C. goes back to [`C79_first_false`].  So adding a
  note can change the order of play: bars completed at the end close an open ending
  [`C79_completed_false`].
* The order of play follows from the marks alone, except that a D.C. without a Segno goes
  to the beginning or to the first bar line by the length of the first bar: with bar lines
  at 960 and 2880 (D.C.) it goes to 0, with 1200 and 2880 to 1200 [`C82_proviso`].
* If the first of several endings begins at tick 0, merging leaves an empty chunk before every
  further ending, so that the merged list is not the shortest [`C97_fewest_false`]; in no other
  score [`C97_silent_iff`].
* A bar line at tick 0 that begins a repeat makes the piece begin with an empty chunk from 0
  to 0 [`C84_provisos`].
* Some bars of a score may never be heard: an ending other than the last, when it comes after
  the D.C. or D.S. [`C87_ending_false`]; and, if a D.C. lies in a repeat that has no Start,
  everything before the first full bar [`C87_before_false`].
* Two Codas before the Segno of a D.S. do not leave anything out of the second pass: it starts
  at the second Coda, before the Segno, and so plays more [`C88_codas_proviso`; for an interval
  library that does not panic on an interval whose ends are the wrong way round].

Editing

* Pasting a note and then a bar is not pasting both at once: the bars completed after the
  note remain [`C80_portions_false`].  Deleting a tempo that was put in the place of another
  does not bring the other back [`C80_back_false`, `C80_back_iff`]; only undo does.
* Past the last bar line `location_to_tick` counts on in bars of the last time signature,
  but `tick_to_location` counts ticks from the last bar line; so adding a note changes the
  location shown for a later tick, 3:500 becoming 4:20 [`C81_location_false`].
* A tempo or pedal that is moved over the tick of another and stops there replaces it; going on
  or back does not bring it back (`C83_steps` says exactly when this happens).
* A note that is trimmed to before tick 0 is played at tick 0.  Dragging the whole tune later
  moves such a note by less than the rest: written at 10 and trimmed by -50 it is played at 0,
  and after a drag by 100 at 60 [`C84_provisos`].
* Pasting: positions beyond 32 bits wrap [`C39_wrap_false`]; since the written
  start is moved, a start trimmed below zero changes its distance
  [`C39_played_false`]; an invalid pitch in the text panics [`C40_pitch_false`].

## 5. Per-property notes

**C01 Every constructible pitch is a MIDI note number** (proved; `Props/Pitch.lean`). All constructors and reachable pitches; MIDI number and staff line agree with an independent specification.
Theorems: `C01_construct`, `C01_reachable_valid`.

**C02 Staff step up and down are exact inverses** (proved; `Props/Pitch.lean`). Step up/down exact, inverse where defined, error at the borders.
Theorems: `C02_up`, `C02_down`, `C02_down_up`, `C02_up_down`.

**C03 Moving a pitch on the staff is exact** (partial; `Props/Pitch.lean`). Staff moves are exact and additive, but the identity move fails for A double flat 8 (C03_zero_false) and octave 9 panics instead of returning an error (C03_octave_nine_panics). The _partial theorems cover all other inputs.
Theorems: `C03_shift`, `C03_shift_overflow`, `C03_shift_add`, `C03_zero_partial`, `C03_zero_false`, `C03_zero_only`, `C03_from_staff`, `C03_from_staff_inverse`, `C03_octave_partial`, `C03_octave_nine_panics`.

**C04 Accidental toggles are cycles** (proved; `Props/Pitch.lean`). Toggle cycles and failure cases, for every pitch.
Theorems: `C04_toggles`, `C04_cycles`, `C04_toggle_fails`.

**C05 Key signatures alter exactly the right notes** (proved; `Props/Pitch.lean`). Every key and letter against the circle of fifths specification.
Theorems: `C05_apply_key`, `C05_count`, `C05_side`.

**C06 Note value lengths follow the dotted/tuplet formula** (proved; `Props/Values.lean`). Exact length, monotonicity, bound; out of range dots from a hand-edited file panic (C06_bad_dots_panic).
Theorems: `C06_formula`, `C06_monotone`, `C06_bound`, `C06_bad_dots_panic`.

**C07 Bar length of a time signature is exact** (proved; `Props/Values.lean`). Exactly the legal signatures are accepted; exact bar length.
Theorems: `C07_construct`, `C07_tick_len`, `C07_default`.

**C08 Adding ticks to a trimmer loses nothing until saturation** (proved; `Props/Values.lean`). Exact saturating total, slot ranges, slot order; the overflow panic is stated.
Theorems: `C08_added`, `C08_added_overflow`, `C08_order`.

**C09 Trimmers survive save and reload** (partial; `Props/Values.lean`). False as stated: reload sums in 16 bits (C09_roundtrip_false). Proved: reload gives the same trimmer exactly when the running totals fit 16 bits, otherwise it panics.
Theorems: `C09_roundtrip_partial`, `C09_reload_panics`, `C09_roundtrip_false`.

**C10 Sounding start and velocity are clamped sums** (partial; `Props/Values.lean`). Velocity clamp proved in full. Start tick exact unless base plus trim exceeds 32 bits, where it wraps (C10_start_false, C10_start_wraps); exactly then (C10_start_iff).
Theorems: `C10_start_partial`, `C10_start_wraps`, `C10_start_iff`, `C10_velocity`, `C10_start_false`.

**C11 Moving a note, bar, tempo or pedal in time is exact or refused** (partial; `Props/Values.lean`). Refusal below 0 and exact moves proved; moves past the last 32-bit tick wrap (C11_wrap_false) and drag never refuses (C11_drag_false); the exact outcome of every move and drag is C11_all.
Theorems: `C11_bar`, `C11_tempo`, `C11_ctrl_chg`, `C11_note`, `C11_compose`, `C11_wrap_false`, `C11_drag_partial`, `C11_drag_note_partial`, `C11_all`, `C11_drag_false`.

**C12 Grid snapping picks the nearest grid line** (proved; `Props/Values.lean`). Nearest line, ties away from zero, odd, monotone, idempotent, for every non-zero 32-bit grid and every tick outside the outermost 2^32 of i64; C12_edges: over all of i64, exactly when snapping overflows.
Theorems: `C12_nearest`, `C12_laws`, `C12_zero`, `C12_edges`.

**C13 Tick to bar location and back is the identity** (proved; `Props/Queries.lean`). Every 32-bit tick, every well-formed project (fewer than 2^32 bars).
Theorems: `C13_roundtrip`, `C13_bar_no`.

**C14 Locations respect time order** (proved; `Props/Queries.lean`). Order in both directions, exact offset, next bar bound.
Theorems: `C14_order`.

**C15 Location to tick never silently wraps** (partial; `Props/Queries.lean`). Exact tick or overflow error whenever the exact tick fits 64 bits; an offset near 2^64 panics (wraps in release builds) instead: C15_overflow_false. C15_all is the result for every location.
Theorems: `C15_exact_partial`, `C15_all`, `C15_overflow_false`.

**C16 Effective tempo, pedal, rhythm and key are those of the latest preceding event** (proved; `Props/Queries.lean`). All five queries return the value of the latest carrying event at or before the tick, else the default.
Theorems: `C16_tempo`, `C16_pedals`, `C16_rhythm_key`.

**C17 Song end equals the maximum note end** (proved; `Props/Queries.lean`). Maximum over all notes, attained; no notes gives none; panic exactly when a note ends after the last 32-bit tick.
Theorems: `C17_max_end`.

**C18 Automatic bar completion** (proved; `Props/Project.lean`). Fewest regular bars covering everything, for every edit that adds or changes content; panics and non-termination (0/n signature from a hand-edited file) are stated.
Theorems: `C18_complete`, `C18_edit`.

**C19 Undo restores the project exactly** (proved; `Props/Project.lean`). All twelve edits; illegal edits are in C23.
Theorems: `C19_undo`.

**C20 Replaying the recorded command reproduces the edit** (proved; `Props/Project.lean`). Exact for every edit; reopening a log is C21_prefix.
Theorems: `C20_redo`, `C20_undo_redo`.

**C21 Undo/redo over whole histories** (proved; `Props/Project.lean`). All interleavings of legal edits, undo and redo.
Theorems: `C21_prefix`, `C21_undo_redo`, `C21_branch`.

**C22 Stores stay sorted, unique and correctly keyed** (proved; `Props/Project.lean`). All reachable states, legal or illegal edits.
Theorems: `C22_edit`, `C22_sessions`, `C22_default`, `C22_default_values`.

**C23 Stale and colliding selections** (partial; `Props/Project.lean, Undone.lean`). False: C23_stale_false, C23_duplicate_false. Proved: the exact effect of any edit and its undoing (C23_undone_partial), and exactly when undoing restores the project (C23_restored_iff).
Theorems: `C23_stale_false`, `C23_duplicate_false`, `C23_present_partial`, `C23_stale_effect_partial`, `C23_undone_partial`, `C23_restored_iff`.

**C24 Exporting and importing a project is lossless** (proved; `Props/Project.lean`). Round trip, well-formed import, stability, and what import keeps.
Theorems: `C24_roundtrip`, `C24_import_wf`, `C24_import`, `C24_stable`.

**C25 Bounded in-memory undo store behaves like two stacks** (proved; `Props/Undo.lean`). Refinement to two bounded stacks for capacity at least 1, with the order of iter; capacity 0 behaves as capacity 1 for all calls (C25_zero_capacity).
Theorems: `C25_two_stacks`, `C25_can`, `C25_iter`, `C25_zero_capacity`, `C25_default`.

**C26 Repeat marks on a bar stay consistent** (partial; `Props/RepeatSet.lean`). Consistency of every set built by adding, exact acceptance and error contents proved. False: re-adding a present mark can be refused (C26_readd_false).
Theorems: `C26_add`, `C26_consistent`, `C26_region`, `C26_readd_partial`, `C26_readd_false`.

**C27 Acceptance of repeat marks does not depend on the order** (partial; `Props/RepeatSet.lean`). False (C27_order_false). Proved: the exact acceptance condition (C27_accept), order independence unless D.C. meets D.S. or Segno meets D.C. or an ending (C27_order_partial), that this proviso is exactly what separates the accepted collections acceptable in every order from the others (C27_every_iff), which collections some order can place (C27_some_iff), and that the resulting set does not depend on the order.
Theorems: `C27_accept`, `C27_order_partial`, `C27_same_set`, `C27_order_false`, `C27_some_iff`, `C27_every_iff`.

**C28 A score without repeat marks is played straight through** (proved; `Props/Render.lean`). For any list of bars without marks, and for sorted bars with marks that do not move the player.
Theorems: `C28_straight`, `C28_no_jump`.

**C29 Simple repeats and numbered endings are played as notated** (proved; `Props/Jump.lean, Render.lean`). For every score of the grammar (sorted bars, no D.C./D.S.) and for every composed piece written down with the fewest bar lines; a score that renders reads in exactly one way.
Theorems: `C29_rendered`, `C29_plays`, `C29_every_piece`, `C29_reads_uniquely`.

**C30 Da capo / dal segno with fine** (partial; `Props/Jump.lean, Render.lean`). As stated it is false: C30_inside_false, C30_inside_endings_false, C30_mark_at_zero_false. Proved exactly, for every score that is rendered: what is played when the jump is outside the first passage and no mark is at tick 0 (C30_rendered), inside a first repeat (C30_inside_repeat: only the second pass), inside first endings (C30_inside_endings: panic), with a mark at tick 0 (C30_mark_at_zero: panic), and when it panics (C30_playable_iff).
Theorems: `C30_rendered`, `C30_inside_repeat`, `C30_inside_endings`, `C30_mark_at_zero`, `C30_playable_iff`, `C30_recorded`, `C30_last_pass`, `C30_ds_partial`, `C30_dc_partial`, `C30_only_first`, `C30_inside_false`, `C30_mark_at_zero_false`, `C30_inside_endings_false`.

**C31 Coda jumps** (partial; `Props/Jump.lean, Render.lean`). C31_rendered: for every rendered score with two Codas, with the provisos of C30 (which cannot be dropped, see there). Which Codas are refused is in C32.
Theorems: `C31_rendered`, `C31_ds_partial`, `C31_dc_partial`.

**C32 Malformed repeats are reported** (partial; `Props/RenderError.lean`). The claim "never panics" is false (C32_panics_false). Proved: an error returned always describes a fault the score has, at the bar lines named (C32_reported); a score is rendered exactly if it reads as passages and its jump fits (C32_accepts_iff); no score with a fault is rendered (C32_refused); a sole fault is returned (C32_only_fault); of several faults, exactly the one that comes to light first, by bar line and then by a fixed ranking, is returned (C32_first); rendering panics exactly if one of three arrangements comes to light first (C32_first_panic, C32_no_panic_partial, C32_panics).
Theorems: `C32_reported`, `C32_accepts_iff`, `C32_refused`, `C32_only_fault`, `C32_no_panic_partial`, `C32_panics`, `C32_first`, `C32_first_panic`, `C32_panics_false`.

**C33 D.C. respects an upbeat bar as documented** (partial; `Props/Render.lean`). The documented rule is false in general (C33_documented_false). Proved: the rule implemented (C33_rule), exactly when it agrees with the documented one (C33_agrees), and that the documented rule is followed then.
Theorems: `C33_rule`, `C33_agrees`, `C33_documented_partial`, `C33_documented_false`.

**C34 Merging adjacent chunks does not change what is played** (proved; `Props/Chunk.lean`). For chunks whose start is not after their end (every rendered chunk is, C50); merging and idempotence for all lists.
Theorems: `C34_order`, `C34_merged`, `C34_idempotent`, `C34_boundaries`.

**C35 Accumulated tick index** (proved; `Props/Chunk.lean`). Chunks as rendering produces them (C50). An empty chunk before the last shares its key with the next one and is dropped, which changes nothing played. More than 32 bits of played time panics (C35_long_panics).
Theorems: `C35_index`, `C35_long_panics`.

**C36 Start position maps to the requested occurrence** (partial; `Props/Chunk.lean`). Exact for all inputs, including where it panics, and for index lists that no score renders to (C36_any); false as stated because an intermediate sum can overflow although the answer fits (C36_overflow_false).
Theorems: `C36_position_partial`, `C36_any`, `C36_unique`, `C36_overflow_false`.

**C37 Tuplets keep the notes** (partial; `Props/Tuple.lean`). False for many notes: 256 equal notes panic (C37_many_false), 258 give denominator 2 (C37_truncated_false). Proved: whenever it returns, no note is lost or changed apart from start and denominator (C37_keeps_partial); the exact result or panic for every selection (C37_all).
Theorems: `C37_keeps_partial`, `C37_exact`, `C37_all`, `C37_equal`, `C37_many_false`, `C37_truncated_false`.

**C38 Notes of a chord stay together in a tuplet** (partial; `Props/Tuple.lean`). False (C38_chord_false): notes of a chord are spread apart, and C38_apart shows this for every chord; hence, where a tuplet is made with shares of at least one tick, all chords stay together exactly if there are none (C38_together_iff). Proved: a selection that is one chord is left alone.
Theorems: `C38_chord_false`, `C38_single_partial`, `C38_apart`, `C38_together_iff`.

**C39 Pasting shifts everything rigidly** (proved; `Props/Clipboard.lean`). Proved for every selection and tick that fit 32 bits: all ticks move by the same distance, the earliest item starts at the requested tick, nothing else changes. Beyond 32 bits ticks wrap silently (C39_wrap_false); the clamped played start may change its distance (C39_played_false).
Theorems: `C39_moved`, `C39_distances`, `C39_attributes`, `C39_empty`, `C39_stay`, `C39_sounding`, `C39_played_false`, `C39_wrap_false`.

**C40 Clipboard text round trip and version check** (partial; `Props/Paste.lean`). Round trip proved exactly for the selections that fit their types (iff); version and empty refusals exact. False for tempo 0, for trimmers whose total exceeds 16 bits (panic), for rates finer than a thousandth; some texts make paste panic.
Theorems: `C40_roundtrip_partial`, `C40_project`, `C40_project_roundtrip`, `C40_version`, `C40_empty`, `C40_accepted`, `C40_no_number`, `C40_tempo_false`, `C40_trimmer_false`, `C40_rate_false`, `C40_pitch_false`.

**C41 Validated text input always reflects the buffer** (proved; `Props/Text.lean`). Any validator, any edits; panics exactly when validating one of the buffers panics.
Theorems: `C41_sync`, `C41_panic`.

**C42 Numeric text fields never crash** (partial; `Props/Text.lean`). False for the tempo field (C42_tempo_false: 1000 panics, 0 is accepted) and the location field (C42_location_false: a number beyond 64 bits panics; C42_location_partial: exactly which texts panic). Proved: exact result of every field on every text; percent for any float parser.
Theorems: `C42_unsigned`, `C42_i16`, `C42_velocity`, `C42_numerator`, `C42_denominator`, `C42_percent`, `C42_tempo_false`, `C42_tempo_partial`, `C42_location_false`, `C42_location_partial`.

**C43 Location text round trip** (proved; `Props/Text.lean`). Round trip for all locations, exact reading of every text; texts a:b with an oversized number or a foreign digit panic (stated in C43_parse).
Theorems: `C43_roundtrip`, `C43_parse`, `C43_refused`.

**C44 Interning returns a unique representative** (proved; `Props/Text.lean`). All call sequences: first instance, shared exactly for equal values, stable.
Theorems: `C44_first`, `C44_shared`, `C44_stable`.

**C45 Clipping** (proved; `Props/Values.lean`). For any irreflexive order; monotone for any asymmetric, negatively transitive one (C45_monotone); nearest point on integers.
Theorems: `C45_clip`, `C45_clip_int`, `C45_monotone`.

**C46 Rate text/percent conversion** (partial; `Props/Rates.lean, Values.lean`). False for exactly ten values (C46_rate_false); proved for the other 1991 and the exact loss for the ten. C46_nearest and C46_truncates prove the rounding of the arithmetic against the definition of binary32 (the upper limit 2^128, which no rate reaches, is apart).
Theorems: `C46_nearest`, `C46_truncates`, `C46_rate_partial`, `C46_rate_false`, `C46_range`, `C46_special`, `C46_max`.

**C47 Note length with rate trimming** (proved; `Props/Values.lean`). Exact floor formula, bound 3826, monotone.
Theorems: `C47_rates`, `C47_length`, `C47_apply`, `C47_monotone`, `C47_longest`.

**C48 Dragging a tempo value saturates** (partial; `Props/Values.lean`). Saturation at 999 proved while the sum stays in 1..65535; dragging below 0 jumps to 999 and to 0 gives an illegal tempo (C48_drag_false); the exact result of every drag is C48_drag_all, and exactly when it is the nearest legal tempo is C48_nearest_iff.
Theorems: `C48_drag_partial`, `C48_drag_all`, `C48_nearest_iff`, `C48_drag_false`, `C48_steps`.

**C49 No passage is played more often than five times** (proved; `Props/Render.lean`). For whatever renders (sorted bars below u32::MAX); five is reached.
Theorems: `C49_five`, `C49_selectable`, `C49_reached`.

**C50 Rendered chunks are well formed** (proved; `Props/Render.lean`). For whatever renders (sorted bars below u32::MAX); kept by Chunk::optimize.
Theorems: `C50_chunks`, `C50_optimized`.

**C51 Whatever paste accepts fits its types** (partial; `Props/Paste.lean`). Every accepted selection fits its types and is stable under copy and paste; channel, dots, numerator and key ranges are not checked (C51_ranges_false).
Theorems: `C51_accepted_partial`, `C51_stable`, `C51_project`, `C51_ranges_false`.

**C52 Commands record exactly what an edit did** (proved; `Props/File.lean`). C52_kind, C52_content and C52_overwritten give the recorded command of every edit: settings with old and new value; items put in, completed bars behind all others, items taken away, the hint. The exact list of overwritten items is for legal edits (distinct ticks within what is put in); for a tuplet the notes are those of C37.
Theorems: `C52_kind`, `C52_content`, `C52_overwritten`.

**C53 A saved project opens unchanged** (partial; `Props/File.lean`). C53_document_partial is an equivalence: exactly the documents whose data fit their types (SavableDocument) come back, and C53_project_iff says the same of a whole project in order. C53_trimmer_false, C53_tempo_false and C53_rate_false show data the constructors allow for which the claim fails. Bytes are those of bincode 1 as assumed in section 2.
Theorems: `C53_document_partial`, `C53_project_partial`, `C53_bytes`, `C53_trimmer_false`, `C53_tempo_false`, `C53_rate_false`, `C53_project_iff`.

**C54 Whatever file opens is a sound project** (proved; `Props/File.lean`). For all byte sequences. C54_unchecked shows which ranges are not checked (the title claims only what is proved).
Theorems: `C54_opened`, `C54_ranges`, `C54_unchecked`.

**C55 A stored session can be reopened** (partial; `Props/File.lean`). C55_session_iff: a session of legal edits is opened as it was exactly if its base and all its commands have data that fit their types (with fewer than 2^62 items of a kind); C55_session_partial says which edits record such commands, C55_trimmer_false shows a legal edit after which the session cannot be opened. C55_stopped: every point at which storing may have stopped. That the crate serdo stores the base and each command as bytes, and a position among the stored commands, is assumed; a command whose bytes are cut short is refused (C56).
Theorems: `C55_command_partial`, `C55_read`, `C55_session_partial`, `C55_state`, `C55_session_iff`, `C55_stopped`, `C55_trimmer_false`.

**C56 Truncated files are refused** (proved; `Props/File.lean`). Every strict prefix, for every project and command whose data fit their types; for other data see the panics of C53.
Theorems: `C56_project`, `C56_command`.

**C58 The total of a rate trimmer is the product of its rates** (proved; `Props/Rates.lean`). For all stored rates, with a proved bound on the error of the three rounded multiplications (C58_product); exact whenever the product is not within a millionth of a whole thousandth (C58_exact).
Theorems: `C58_product`, `C58_exact`, `C58_single`, `C58_one`.

**C59 A rate trimmer survives saving and reloading** (partial; `Props/Rates.lean`). False for rates which are cut off or finer than a thousandth, and for ten rates of a thousandth (C59_reload_false). Proved for all other combinations of thousandths (C59_reload_partial); for one rate that may be any binary32 number, exactly when the trimmer comes back the same (C59_single_iff).
Theorems: `C59_reload_partial`, `C59_reload_false`, `C59_stable`, `C59_single_iff`.

**C60 Constructors and conversions accept exactly the legal values** (proved; `Props/Parts.lean`). Exact result of each constructor and conversion on every number; legality of every default.
Theorems: `C60_note_value`, `C60_accepts`, `C60_tempo_steps`, `C60_endings`, `C60_octaves`, `C60_trimmer`, `C60_updated`, `C60_rate_trimmer`, `C60_play_iter`, `C60_defaults`.

**C61 What is shown can be read back** (partial; `Props/Parts.lean`). Reading is exact and what is shown is read back; false only for the error text of a zero grid (C61_grid_text_false), exact in C61_grid_refused. The text of percentages is the subject of C68.
Theorems: `C61_grid_partial`, `C61_grid_refused`, `C61_grid_text_false`, `C61_roundtrip`, `C61_shown_apart`.

**C62 Equality and hashing of trimmers agree with their contents** (partial; `Props/Parts.lean`). Proved for trimmers; for rate trimmers only equality of everything held (C62_rate_partial), the rest is false (C62_rate_false).
Theorems: `C62_trimmer`, `C62_rate_partial`, `C62_rate_false`.

**C63 Editing one aspect of a note leaves the others alone** (proved; `Props/Parts.lean`). Exact result of every edit; dots for any note and any 32-bit number.
Theorems: `C63_pitch`, `C63_step_back`, `C63_dots`, `C63_dots_overflow`, `C63_dots_back`, `C63_length`, `C63_tie`, `C63_valid`.

**C64 Builders make legal values** (partial; `Props/Marks.lean, Parts.lean`). Notes: proved. Pitches: false (C64_pitch_false); C64_pitch_partial says exactly which builders make a legal pitch. What derive_builder generates is assumed.
Theorems: `C64_selection`, `C64_pitch_false`, `C64_pitch_partial`, `C64_note`.

**C57 The documented structure rules hold in every rendered score** (partial; `Props/Structure.lean`). Which rules are enforced is proved (C57_enforced_partial); each of the others is refuted by a score that is rendered (C57_segno_after_fine_false, C57_idle_marks_false, C57_dc_marks_false, C57_coda_at_fine_false, C57_one_ending_false, C57_repeat_in_common_false). C57_idle: marks without a jump never change what is played.
Theorems: `C57_enforced_partial`, `C57_segno_after_fine_false`, `C57_idle_marks_false`, `C57_dc_marks_false`, `C57_coda_at_fine_false`, `C57_one_ending_false`, `C57_repeat_in_common_false`, `C57_idle`.

**C65 What an edit leaves in the project** (proved; `Props/Edit.lean`). C65_settings, C65_plain (adding a bar, removing), C65_content (all others: exact result or failure), C65_refused, C65_tuplet_error. Edited and ItemsAfter (Spec/Project) say what is in the project after the edit.
Theorems: `C65_settings`, `C65_refused`, `C65_plain`, `C65_content`, `C65_tuplet_error`.

**C66 The figures of the repeat documentation are played as drawn** (partial; `Props/Figures.lean`). Proved for all bar lengths, except figure 8-1 (upbeat, short D.C. bar: false unless the upbeat is half a bar, C66_fig8_1_false) and figure 8-2 (upbeat, full D.C. bar: false if the upbeat is half a bar, C66_fig8_2_false); C66_fig8_1_partial and C66_fig8_2_partial are the other cases. The figures were read from the drawio sources in docs/repeat. Each bar of an ending must carry the number (C66_unmarked_false).
Theorems: `C66_fig1`, `C66_fig2`, `C66_fig3`, `C66_fig4`, `C66_fig5`, `C66_fig6`, `C66_fig7`, `C66_fig8`, `C66_fig8_3`, `C66_fig8_4`, `C66_fig9`, `C66_fig9_1`, `C66_fig8_1_partial`, `C66_fig8_1_false`, `C66_fig8_2_partial`, `C66_fig8_2_false`, `C66_unmarked_false`.

**C67 The clipboard text as a format** (proved; `Props/ClipText.lean, Strings.lean`). C67_text (the text), C67_members (AnObject for all thirteen types), C67_trailing, C67_strings and C67_skipped (both directions). What derived Serialize/Deserialize and serde_json do is assumed as modelled.
Theorems: `C67_text`, `C67_trailing`, `C67_members`, `C67_strings`, `C67_skipped`.

**C68 Percentages as text** (partial; `Props/RateText.lean`). C68_shown (the text of every rate), C68_reads (exactly which texts are read, and as which number), C68_same, C68_entered; that what is shown is read back as the same rate is false for ten rates (C68_roundtrip_false), exact in C68_roundtrip_partial. Reading and showing f32 is modelled after the documentation of the standard library.
Theorems: `C68_shown`, `C68_reads`, `C68_same`, `C68_roundtrip_partial`, `C68_roundtrip_false`, `C68_entered`.

**C69 A copy that follows the announced changes stays in step** (proved; `Props/Announce.lean`). C69_edit, C69_silent, C69_undo, C69_session. The queues are in klavier_helper; modelled are the calls that fill them, in order for each collection.
Theorems: `C69_edit`, `C69_silent`, `C69_undo`, `C69_session`.

**C70 The selection hint goes with the items it was given for** (partial; `Props/Announce.lean`). C70_edit and C70_undo say what is announced with which hint; that redo announces the same as the edit is false (C70_redo_false): it gives the hint to completed bars as well. Exact in C70_redo_partial.
Theorems: `C70_edit`, `C70_undo`, `C70_redo_partial`, `C70_redo_false`.

**C71 Exactly the JSON texts of the format are pasted** (proved; `Props/JsonGrammar.lean`). C71_json (the grammar), C71_read, C71_paste, C71_import, both directions. JsonText and IsSelection/IsClipProject are defined without the reader. Members that are not known are skipped, with fewer checks (MemberText.skipped). What serde_json does is assumed as modelled.
Theorems: `C71_json`, `C71_read`, `C71_paste`, `C71_import`.

**C72 Error messages name what is wrong** (partial; `Props/ErrorText.lean`). C72_render_text and C72_render_bars (rendering), C72_pitch_text. False for octaves (C72_octave_false: the number shown is two higher; exact in C72_octave_partial) and for stepping down from the lowest C (C72_pitch_false; exactly that case by C72_pitch_partial). Derived Debug is modelled after its documentation.
Theorems: `C72_octave_false`, `C72_octave_partial`, `C72_pitch_false`, `C72_pitch_partial`, `C72_pitch_text`, `C72_render_text`, `C72_render_bars`.

**C73 The marks listed are the marks of the bar** (proved; `Props/Marks.lean`). C73_macro (exactly which lists panic), C73_len, C73_most.
Theorems: `C73_macro`, `C73_len`, `C73_most`.

**C74 The jump builder keeps what it is told** (proved; `Props/Marks.lean`). C74_calls (exactly which calls are accepted and what is held), C74_order, C74_refused (which error), C74_dc, C74_dc_ds. The builder is driven directly here; over the bars of a score see C28 to C33.
Theorems: `C74_calls`, `C74_order`, `C74_refused`, `C74_dc`, `C74_dc_ds`.

**C75 Without overflow checks nothing changes where the checks pass** (proved; `Props/Release.lean`). C75_values, C75_notes, C75_project (every sequence of edits, undo, redo), C75_render. The build without checks is modelled function by function in Model/Release.lean; the crates klavier_helper and serdo are taken as unchanged, and std as usual (shift amounts are masked).
Theorems: `C75_values`, `C75_notes`, `C75_project`, `C75_render`.

**C76 What happens without overflow checks where they would stop** (partial; `Props/Release.lean, ReleaseRender.lean, ReleaseTuple.lean`). False for locations (C76_location_false), trimmers made from an array (C76_trimmer_false), snapping (C76_snap_false), the completion of bars, which may never end (C76_hang_false), notes ending after 2^32 ticks (C76_note_false), tuplets at the last ticks (C76_tuple_false), and a D.C. after certain first bars (C76_render_false). Exact results: C76_start, C76_location_partial, C76_trimmer_partial, C76_added, C76_pitch, C76_dots, C76_length, C76_tempo, C76_snap_partial, C76_bars, C76_hang_partial, C76_tuple_partial, C76_render_partial (with C76_render_right: when it is right). Not given: scores with a jump and a mark at tick 0, because what intervallum does with ends that have wrapped is not known.
Theorems: `C76_start`, `C76_location_partial`, `C76_location_false`, `C76_trimmer_partial`, `C76_trimmer_false`, `C76_added`, `C76_pitch`, `C76_dots`, `C76_length`, `C76_tempo`, `C76_snap_false`, `C76_snap_partial`, `C76_bars`, `C76_hang_partial`, `C76_hang_false`, `C76_note_false`, `C76_render_partial`, `C76_render_right`, `C76_render_false`, `C76_tuple_partial`, `C76_tuple_false`.

**C77 Counting letters and octaves** (partial; `Props/Counting.lean`). True for octaves (C77_octave). False for letters (C77_letter_false: C += -1 stays C, B -= -1 stays B); exact results and panics for every 32-bit number in C77_letter_partial. The library itself only adds and subtracts 1 (C02).
Theorems: `C77_octave`, `C77_letter_false`, `C77_letter_partial`.

**C78 What a refused number field says** (partial; `Props/FieldError.lean`). False in two ways: a numerator or denominator above 255 is reported as no number (C78_beyond_false), and a text that begins with too large a number is reported as a number too large although more follows (C78_junk_false). Exactly which texts give which error: C78_i16, C78_unsigned, C78_beyond_partial. The errors of the location field (only one) and of the percent field are in C42.
Theorems: `C78_i16`, `C78_unsigned`, `C78_beyond_false`, `C78_junk_false`, `C78_beyond_partial`.

**C79 Only marks decide the order of play** (partial; `Props/Unheard.lean`). True for keys and time signatures (C79_signatures) and the time signature of the tune (C79_tune). Plain bar lines: false inside an ending (C79_ending_false) and for the first bar line when there is a D.C. (C79_first_false); true otherwise (C79_line_partial). Completion of bars and edits that touch no bar line: C79_completed_partial, C79_edit_partial, with C79_completed_false showing that their two provisos are needed.
Theorems: `C79_signatures`, `C79_tune`, `C79_line_partial`, `C79_first_false`, `C79_ending_false`, `C79_completed_partial`, `C79_edit_partial`, `C79_completed_false`.

**C80 Editing in portions** (partial; `Props/Portions.lean`). Two portions against one, with success of each way equivalent: C80_portions_partial (any number of notes one by one: C80_phrase; single additions: C80_single); false if the second portion has bars (C80_portions_false). Order: C80_order_partial; false for things that take the place of each other (C80_order_false); without bars, one order succeeds exactly with the other, and the results agree exactly if the last tempo and pedals of both at a common tick do (C80_order_iff). Deletion: C80_delete, no proviso. Deleting what was just added: C80_back_partial; what the addition replaced is lost (C80_back_false); exactly what is left, and exactly when it is what there was before: C80_back_iff.
Theorems: `C80_portions_partial`, `C80_single`, `C80_order_partial`, `C80_order_iff`, `C80_delete`, `C80_phrase`, `C80_back_partial`, `C80_back_iff`, `C80_portions_false`, `C80_order_false`, `C80_back_false`.

**C81 Places keep their names** (partial; `Props/Places.lean`). Ticks of locations and values in force: C81_place, C81_values, C81_edit, C81_noted, no proviso beyond the statement. Locations of ticks: unchanged before the first completed bar line, and exactly given from there on (C81_location_partial), where they do change (C81_location_iff, C81_location_false). New bar line: C81_bar.
Theorems: `C81_place`, `C81_values`, `C81_location_partial`, `C81_location_iff`, `C81_edit`, `C81_noted`, `C81_bar`, `C81_location_false`.

**C82 The order of play does not depend on the lengths of the bars** (proved; `Props/Stretch.lean`). C82_lengths (outcomes, warnings, errors and panics included), C82_lines and C82_joined hold with the proviso of the statement and no other; a D.C. without a Segno whose first bar is full, or half of a full one, in one score only goes to another place (C82_proviso).
Theorems: `C82_lengths`, `C82_proviso`, `C82_lines`, `C82_joined`.

**C83 Changing things in two steps** (proved; `Props/Steps.lean`). C83_steps (two steps against one, with an exact condition for tempos and pedals, and the bars), C83_back (there and back), C83_still (no change).
Theorems: `C83_steps`, `C83_still`, `C83_back`.

**C84 Moving the whole tune** (proved; `Props/Moving.lean`). C84_moved (the change yields exactly the moved project), C84_values, C84_places, C84_play and C84_back, each with the provisos of the statement; C84_provisos shows three of them are needed (a bar line at tick 0, a D.C. without Segno, a note cut off at tick 0). A note whose pitch cannot be dragged (C03) makes the drag panic before there is a change.
Theorems: `C84_moved`, `C84_values`, `C84_places`, `C84_play`, `C84_back`, `C84_provisos`.

**C85 Cutting and pasting is dragging** (proved; `Props/Cut.lean`). C85_cut (by way of the clipboard text, with equal outcomes of the two edits, panics included), C85_back (pasted where it was), C85_order (pasting before deleting is not the same). The drag of every thing of the selection is assumed to succeed; a note whose pitch cannot be dragged (C03) can still be cut and pasted.
Theorems: `C85_cut`, `C85_back`, `C85_order`.

**C86 Playing jumps only from mark to mark** (proved; `Props/Flow.lean`). C86_jumps (neighbouring ticks), C86_ends (first and last tick), C86_whole (no bar is cut); for every score that render_region accepts and to_chunks does not panic on.
Theorems: `C86_jumps`, `C86_ends`, `C86_whole`.

**C87 What is never heard** (partial; `Props/Flow.lean`). True without a jump (C87_straight). With one, C87_jump_partial says exactly what is heard; C87_before_partial: everything before the jump if no End follows it, and everything from its target on if there are no Fine, Codas and endings. False in general: an ending other than the last after the D.C. is never heard (C87_ending_false), nor is what precedes the target of a D.C. that lies in a first repeat (C87_before_false).
Theorems: `C87_straight`, `C87_jump_partial`, `C87_before_partial`, `C87_ending_false`, `C87_before_false`.

**C88 A mark does what it says and nothing else** (proved; `Props/Adding.lean`). C88_repeat, C88_fine, C88_codas, each with the provisos of the statement; C88_fine_accepts_iff, C88_codas_accepts_iff: exactly when the marked score is accepted; C88_coda_alone, C88_idle: a lone Coda, and these marks without a jump; C88_repeat_proviso and C88_codas_proviso show that they are needed (within a repeat a repeat is refused, at the beginning of a score with a jump playing panics, Codas before the target of the jump lengthen the second pass).
Theorems: `C88_repeat`, `C88_fine`, `C88_codas`, `C88_fine_accepts_iff`, `C88_codas_accepts_iff`, `C88_idle`, `C88_coda_alone`, `C88_codas_proviso`, `C88_repeat_proviso`.

**C89 Tuplets made again, elsewhere, or of another selection** (proved; `Props/TupleAgain.lean`). C89_again, C89_moved, C89_order; C89_chord_proviso and C89_short_proviso show that the provisos are needed.
Theorems: `C89_again`, `C89_moved`, `C89_order`, `C89_chord_proviso`, `C89_short_proviso`.

**C90 A Start begins afresh** (proved; `Props/Afresh.lean`). C90_accepts, C90_played; C90_implicit: a Start at tick 0 can be left out; C90_number_proviso and C90_jump_proviso show that the provisos are needed (for C90_implicit with a jump see C30_mark_at_zero_false).
Theorems: `C90_accepts`, `C90_played`, `C90_implicit`, `C90_number_proviso`, `C90_jump_proviso`.

**C91 Every moment of playing can be started from** (proved; `Props/Moments.lean`). C91_every, C91_order, C91_merged, with the proviso of the statement; C91_proviso shows that it is needed.
Theorems: `C91_every`, `C91_order`, `C91_merged`, `C91_proviso`.

**C92 A score is played bar by bar** (proved; `Props/BarByBar.lean`). C92_order (the sequence, the same for all lengths), C92_unique, C92_position, C92_times. The position is given if it and the tick together fit 32 bits (C91_proviso); what follows the last bar line counts as a bar that ends at u32::MAX.
Theorems: `C92_order`, `C92_position`, `C92_times`, `C92_unique`.

**C93 An editor that reads the queues and clears them misses nothing** (proved; `Props/Listen.lean`). C93_clear, C93_follow, C93_resume, C93_once. The queues hold the calls that give rise to the events (the events are made in the crate klavier_helper); whether irreversible_mutate of serdo keeps the recorded commands is not known and is a parameter.
Theorems: `C93_clear`, `C93_follow`, `C93_resume`, `C93_once`.

**C94 A D.C. or D.S. does what it says and nothing else** (proved; `Props/AddJump.lean`). C94_ds, C94_dc, C94_refused; C94_dc_accepts_iff, C94_ds_accepts_iff: exactly when the marked score is accepted; C94_dc_as_ds: a D.C. plays what a D.S. with the Segno at the place it goes back to plays; C94_dc_as_ds_iff: on any score without jump and Segno, exactly when the D.S. is accepted if the D.C. is, and then the chunks are the same; C94_dc_with_segno: the same where a Segno is written, to which the D.C. goes with a warning; C94_dc_as_ds_proviso: not so with that place inside a first ending or with a lone Coda, where the D.C. is accepted and the D.S. refused; C94_proviso shows that the other provisos are needed (within a repeat at the beginning of the score the first pass is left out, with a mark at tick 0 playing panics).
Theorems: `C94_ds`, `C94_dc`, `C94_dc_as_ds`, `C94_dc_as_ds_iff`, `C94_dc_with_segno`, `C94_refused`, `C94_dc_accepts_iff`, `C94_ds_accepts_iff`, `C94_proviso`, `C94_dc_as_ds_proviso`.

**C95 Numbered endings do what they say and nothing else** (proved; `Props/AddEndings.lean`). C95_endings; C95_proviso shows that the provisos are needed (a Segno in an ending that is left out is refused, with a jump and a Start at tick 0 playing panics, a bar line behind the endings that has a number of its own lengthens the last ending).
Theorems: `C95_endings`, `C95_proviso`.

**C96 A session of ordinary edits never panics** (proved; `Props/Ordinary.lean`). C96_edit, C96_session, C96_default, C96_questions; C96_limit shows that a limit is needed. The tick of a location is had for offsets up to 2^63. What the database and the change events do is outside of the model.
Theorems: `C96_edit`, `C96_session`, `C96_default`, `C96_questions`, `C96_limit`.

**C97 The merged chunks of a score are the fewest that play it, and are determined by what is played** (partial; `Props/Fewest.lean`). False: C97_fewest_false: if the first of two or more endings begins at tick 0, merging leaves chunks that play nothing. C97_silent_iff and C97_fewest_iff show that this is exactly the exception; for all other scores C97_fewest_partial and C97_same_partial. C97_one_list is about all lists of chunks.
Theorems: `C97_one_list`, `C97_silent_iff`, `C97_fewest_partial`, `C97_fewest_iff`, `C97_fewest_false`, `C97_same_partial`.

**C98 What is copied or saved tells what it was made of** (proved; `Props/Stored.lean`). C98_text, C98_file, C98_command, C98_project; C98_rates shows that the exception is real, C98_order that the order of notes that sound together is part of the file. JSON text and bincode bytes as assumed in section 2.
Theorems: `C98_text`, `C98_file`, `C98_command`, `C98_project`, `C98_rates`, `C98_order`.

**C99 How often everything is heard** (proved; `Props/Times.lean`). C99_passage, C99_straight, C99_jump, C99_asked. The number reported is given for scores whose chunks can be put in order of playing (see C36).
Theorems: `C99_passage`, `C99_straight`, `C99_jump`, `C99_asked`.

## 6. Axioms per theorem

Regenerated with `#print axioms`.

* [propext, Classical.choice, Quot.sound]: `C02_up`, `C02_down`, `C02_down_up`, `C02_up_down`, `C03_shift_add`, `C05_apply_key`, `C05_side`, `C07_construct`, `C07_tick_len`, `C08_added`, `C09_roundtrip_partial`, `C10_start_wraps`, `C11_note`, `C11_compose`, `C12_nearest`, `C12_edges`, `C14_order`, `C15_exact_partial`, `C15_all`, `C16_rhythm_key`, `C17_max_end`, `C18_complete`, `C18_edit`, `C19_undo`, `C20_redo`, `C20_undo_redo`, `C21_prefix`, `C21_undo_redo`, `C21_branch`, `C22_edit`, `C22_sessions`, `C23_present_partial`, `C23_stale_effect_partial`, `C23_undone_partial`, `C23_restored_iff`, `C26_add`, `C26_consistent`, `C26_region`, `C26_readd_partial`, `C27_accept`, `C27_order_partial`, `C27_same_set`, `C27_some_iff`, `C27_every_iff`, `C28_no_jump`, `C29_rendered`, `C29_plays`, `C29_every_piece`, `C29_reads_uniquely`, `C30_rendered`, `C30_inside_repeat`, `C30_inside_endings`, `C30_mark_at_zero`, `C30_playable_iff`, `C30_recorded`, `C30_last_pass`, `C30_ds_partial`, `C30_dc_partial`, `C30_only_first`, `C30_inside_false`, `C31_rendered`, `C31_ds_partial`, `C31_dc_partial`, `C32_reported`, `C32_accepts_iff`, `C32_refused`, `C32_only_fault`, `C32_no_panic_partial`, `C32_panics`, `C32_first`, `C32_first_panic`, `C33_rule`, `C33_documented_partial`, `C33_documented_false`, `C34_order`, `C35_index`, `C35_long_panics`, `C36_position_partial`, `C36_unique`, `C36_overflow_false`, `C37_keeps_partial`, `C37_exact`, `C37_all`, `C37_equal`, `C37_many_false`, `C38_single_partial`, `C38_apart`, `C38_together_iff`, `C40_roundtrip_partial`, `C40_project`, `C40_project_roundtrip`, `C40_version`, `C40_empty`, `C40_accepted`, `C40_no_number`, `C40_tempo_false`, `C40_trimmer_false`, `C40_rate_false`, `C40_pitch_false`, `C42_tempo_false`, `C42_tempo_partial`, `C42_location_false`, `C42_location_partial`, `C43_roundtrip`, `C43_refused`, `C46_nearest`, `C48_nearest_iff`, `C49_five`, `C49_selectable`, `C49_reached`, `C50_chunks`, `C51_accepted_partial`, `C51_stable`, `C51_project`, `C51_ranges_false`, `C52_content`, `C53_document_partial`, `C53_project_partial`, `C53_project_iff`, `C54_opened`, `C54_ranges`, `C55_command_partial`, `C55_read`, `C55_session_partial`, `C55_state`, `C55_session_iff`, `C55_stopped`, `C55_trimmer_false`, `C56_project`, `C56_command`, `C58_product`, `C58_exact`, `C59_single_iff`, `C60_note_value`, `C60_endings`, `C60_octaves`, `C60_play_iter`, `C61_grid_text_false`, `C61_roundtrip`, `C61_shown_apart`, `C63_step_back`, `C63_dots`, `C63_dots_back`, `C63_valid`, `C57_enforced_partial`, `C57_idle`, `C65_plain`, `C65_content`, `C66_fig1`, `C66_fig2`, `C66_fig3`, `C66_fig4`, `C66_fig5`, `C66_fig6`, `C66_fig7`, `C66_fig8`, `C66_fig8_3`, `C66_fig8_4`, `C66_fig9`, `C66_fig9_1`, `C66_fig8_1_partial`, `C66_fig8_1_false`, `C66_fig8_2_partial`, `C66_fig8_2_false`, `C66_unmarked_false`, `C67_text`, `C67_trailing`, `C67_members`, `C67_strings`, `C67_skipped`, `C68_shown`, `C68_reads`, `C68_same`, `C68_roundtrip_partial`, `C68_roundtrip_false`, `C68_entered`, `C71_json`, `C71_read`, `C71_paste`, `C71_import`, `C72_octave_false`, `C72_octave_partial`, `C72_pitch_text`, `C72_render_text`, `C72_render_bars`, `C73_len`, `C73_most`, `C76_location_partial`, `C76_dots`, `C76_length`, `C76_snap_partial`, `C76_bars`, `C76_hang_partial`, `C76_hang_false`, `C76_note_false`, `C76_render_partial`, `C76_render_right`, `C76_tuple_partial`, `C77_octave`, `C77_letter_partial`, `C78_i16`, `C78_unsigned`, `C78_beyond_false`, `C78_junk_false`, `C78_beyond_partial`, `C79_completed_partial`, `C79_edit_partial`, `C80_portions_partial`, `C80_order_partial`, `C80_order_iff`, `C80_delete`, `C80_phrase`, `C80_back_partial`, `C80_back_iff`, `C81_place`, `C81_values`, `C81_location_partial`, `C81_location_iff`, `C81_edit`, `C81_noted`, `C81_bar`, `C81_location_false`, `C82_lengths`, `C82_lines`, `C82_joined`, `C83_steps`, `C83_still`, `C83_back`, `C84_moved`, `C84_values`, `C84_places`, `C84_play`, `C84_back`, `C85_cut`, `C85_back`, `C86_jumps`, `C86_ends`, `C86_whole`, `C87_straight`, `C87_jump_partial`, `C87_before_partial`, `C87_ending_false`, `C87_before_false`, `C88_repeat`, `C88_fine`, `C88_codas`, `C88_fine_accepts_iff`, `C88_codas_accepts_iff`, `C88_idle`, `C88_coda_alone`, `C89_moved`, `C89_order`, `C90_accepts`, `C90_played`, `C90_implicit`, `C91_every`, `C91_order`, `C91_merged`, `C91_proviso`, `C92_order`, `C92_position`, `C92_times`, `C94_ds`, `C94_dc`, `C94_dc_as_ds`, `C94_dc_as_ds_iff`, `C94_dc_with_segno`, `C94_refused`, `C94_dc_accepts_iff`, `C94_ds_accepts_iff`, `C95_endings`, `C96_edit`, `C96_session`, `C96_questions`, `C97_one_list`, `C97_silent_iff`, `C97_fewest_partial`, `C97_fewest_iff`, `C97_fewest_false`, `C97_same_partial`, `C98_text`, `C98_file`, `C98_command`, `C98_project`, `C98_rates`, `C99_passage`, `C99_straight`, `C99_jump`, `C99_asked`

* [propext, Quot.sound]: `C01_construct`, `C01_reachable_valid`, `C03_shift`, `C03_shift_overflow`, `C03_zero_partial`, `C03_zero_only`, `C03_from_staff`, `C03_from_staff_inverse`, `C03_octave_partial`, `C04_toggles`, `C04_cycles`, `C04_toggle_fails`, `C05_count`, `C06_formula`, `C06_monotone`, `C06_bound`, `C06_bad_dots_panic`, `C08_added_overflow`, `C08_order`, `C10_start_partial`, `C10_start_iff`, `C10_velocity`, `C11_bar`, `C11_tempo`, `C11_ctrl_chg`, `C11_drag_partial`, `C11_drag_note_partial`, `C11_all`, `C12_laws`, `C12_zero`, `C13_roundtrip`, `C13_bar_no`, `C15_overflow_false`, `C16_tempo`, `C16_pedals`, `C22_default_values`, `C23_stale_false`, `C23_duplicate_false`, `C24_roundtrip`, `C24_import_wf`, `C24_import`, `C24_stable`, `C25_two_stacks`, `C25_can`, `C25_iter`, `C25_zero_capacity`, `C25_default`, `C28_straight`, `C30_mark_at_zero_false`, `C30_inside_endings_false`, `C33_agrees`, `C34_merged`, `C34_idempotent`, `C34_boundaries`, `C36_any`, `C37_truncated_false`, `C39_moved`, `C39_distances`, `C39_stay`, `C39_sounding`, `C39_played_false`, `C39_wrap_false`, `C41_sync`, `C41_panic`, `C42_unsigned`, `C42_i16`, `C42_velocity`, `C42_numerator`, `C42_denominator`, `C42_percent`, `C43_parse`, `C44_first`, `C44_shared`, `C45_clip_int`, `C46_truncates`, `C46_rate_partial`, `C46_range`, `C46_max`, `C47_rates`, `C47_length`, `C47_apply`, `C47_monotone`, `C48_drag_partial`, `C48_drag_all`, `C48_steps`, `C50_optimized`, `C52_kind`, `C52_overwritten`, `C53_bytes`, `C53_trimmer_false`, `C53_tempo_false`, `C53_rate_false`, `C54_unchecked`, `C58_single`, `C58_one`, `C59_reload_partial`, `C60_accepts`, `C60_tempo_steps`, `C60_trimmer`, `C60_updated`, `C60_rate_trimmer`, `C61_grid_partial`, `C61_grid_refused`, `C63_pitch`, `C63_dots_overflow`, `C64_pitch_partial`, `C65_settings`, `C65_refused`, `C65_tuplet_error`, `C69_edit`, `C69_silent`, `C69_undo`, `C69_session`, `C70_edit`, `C70_redo_partial`, `C70_redo_false`, `C72_pitch_partial`, `C73_macro`, `C74_calls`, `C74_order`, `C74_refused`, `C74_dc`, `C74_dc_ds`, `C75_values`, `C75_notes`, `C75_project`, `C75_render`, `C76_start`, `C76_location_false`, `C76_trimmer_partial`, `C76_added`, `C76_pitch`, `C76_tempo`, `C79_signatures`, `C79_tune`, `C79_line_partial`, `C79_completed_false`, `C80_single`, `C80_portions_false`, `C80_order_false`, `C80_back_false`, `C85_order`, `C89_again`, `C92_unique`, `C93_clear`, `C93_follow`, `C93_resume`, `C93_once`, `C96_default`, `C96_limit`, `C98_order`

* [propext]: `C03_zero_false`, `C03_octave_nine_panics`, `C09_reload_panics`, `C11_drag_false`, `C32_panics_false`, `C38_chord_false`, `C39_attributes`, `C39_empty`, `C44_stable`, `C45_clip`, `C45_monotone`, `C46_rate_false`, `C46_special`, `C59_reload_false`, `C59_stable`, `C62_trimmer`, `C62_rate_partial`, `C62_rate_false`, `C63_length`, `C63_tie`, `C64_selection`, `C57_segno_after_fine_false`, `C57_idle_marks_false`, `C57_dc_marks_false`, `C57_coda_at_fine_false`, `C57_one_ending_false`, `C57_repeat_in_common_false`, `C70_undo`, `C72_pitch_false`, `C76_render_false`, `C77_letter_false`, `C79_first_false`, `C79_ending_false`, `C82_proviso`, `C84_provisos`, `C88_codas_proviso`, `C88_repeat_proviso`, `C90_number_proviso`, `C90_jump_proviso`, `C94_proviso`, `C94_dc_as_ds_proviso`, `C95_proviso`

* none: `C07_default`, `C09_roundtrip_false`, `C10_start_false`, `C11_wrap_false`, `C22_default`, `C26_readd_false`, `C27_order_false`, `C47_longest`, `C48_drag_false`, `C60_defaults`, `C64_pitch_false`, `C64_note`, `C76_trimmer_false`, `C76_snap_false`, `C76_tuple_false`, `C89_chord_proviso`, `C89_short_proviso`
