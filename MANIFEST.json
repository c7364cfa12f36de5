{
 "claims": [
  {
   "property": "C01",
   "status": "proved",
   "theorems": [
    "Klavier.C01_construct",
    "Klavier.C01_reachable_valid"
   ],
   "note": "All constructors and reachable pitches; MIDI number and staff line agree with an independent specification."
  },
  {
   "property": "C02",
   "status": "proved",
   "theorems": [
    "Klavier.C02_up",
    "Klavier.C02_down",
    "Klavier.C02_down_up",
    "Klavier.C02_up_down"
   ],
   "note": "Step up/down exact, inverse where defined, error at the borders."
  },
  {
   "property": "C03",
   "status": "partial",
   "theorems": [
    "Klavier.C03_shift",
    "Klavier.C03_shift_overflow",
    "Klavier.C03_shift_add",
    "Klavier.C03_zero_partial",
    "Klavier.C03_zero_false",
    "Klavier.C03_zero_only",
    "Klavier.C03_from_staff",
    "Klavier.C03_from_staff_inverse",
    "Klavier.C03_octave_partial",
    "Klavier.C03_octave_nine_panics"
   ],
   "note": "Staff moves are exact and additive, but the identity move fails for A double flat 8 (C03_zero_false) and octave 9 panics instead of returning an error (C03_octave_nine_panics). The _partial theorems cover all other inputs."
  },
  {
   "property": "C04",
   "status": "proved",
   "theorems": [
    "Klavier.C04_toggles",
    "Klavier.C04_cycles",
    "Klavier.C04_toggle_fails"
   ],
   "note": "Toggle cycles and failure cases, for every pitch."
  },
  {
   "property": "C05",
   "status": "proved",
   "theorems": [
    "Klavier.C05_apply_key",
    "Klavier.C05_count",
    "Klavier.C05_side"
   ],
   "note": "Every key and letter against the circle of fifths specification."
  },
  {
   "property": "C06",
   "status": "proved",
   "theorems": [
    "Klavier.C06_formula",
    "Klavier.C06_monotone",
    "Klavier.C06_bound",
    "Klavier.C06_bad_dots_panic"
   ],
   "note": "Exact length, monotonicity, bound; out of range dots from a hand-edited file panic (C06_bad_dots_panic)."
  },
  {
   "property": "C07",
   "status": "proved",
   "theorems": [
    "Klavier.C07_construct",
    "Klavier.C07_tick_len",
    "Klavier.C07_default"
   ],
   "note": "Exactly the legal signatures are accepted; exact bar length."
  },
  {
   "property": "C08",
   "status": "proved",
   "theorems": [
    "Klavier.C08_added",
    "Klavier.C08_added_overflow",
    "Klavier.C08_order"
   ],
   "note": "Exact saturating total, slot ranges, slot order; the overflow panic is stated."
  },
  {
   "property": "C09",
   "status": "partial",
   "theorems": [
    "Klavier.C09_roundtrip_partial",
    "Klavier.C09_reload_panics",
    "Klavier.C09_roundtrip_false"
   ],
   "note": "False as stated: reload sums in 16 bits (C09_roundtrip_false). Proved: reload gives the same trimmer exactly when the running totals fit 16 bits, otherwise it panics."
  },
  {
   "property": "C10",
   "status": "partial",
   "theorems": [
    "Klavier.C10_start_partial",
    "Klavier.C10_start_wraps",
    "Klavier.C10_start_iff",
    "Klavier.C10_velocity",
    "Klavier.C10_start_false"
   ],
   "note": "Velocity clamp proved in full. Start tick exact unless base plus trim exceeds 32 bits, where it wraps (C10_start_false, C10_start_wraps); exactly then (C10_start_iff)."
  },
  {
   "property": "C11",
   "status": "partial",
   "theorems": [
    "Klavier.C11_bar",
    "Klavier.C11_tempo",
    "Klavier.C11_ctrl_chg",
    "Klavier.C11_note",
    "Klavier.C11_compose",
    "Klavier.C11_wrap_false",
    "Klavier.C11_drag_partial",
    "Klavier.C11_drag_note_partial",
    "Klavier.C11_all",
    "Klavier.C11_drag_false"
   ],
   "note": "Refusal below 0 and exact moves proved; moves past the last 32-bit tick wrap (C11_wrap_false) and drag never refuses (C11_drag_false); the exact outcome of every move and drag is C11_all."
  },
  {
   "property": "C12",
   "status": "proved",
   "theorems": [
    "Klavier.C12_nearest",
    "Klavier.C12_laws",
    "Klavier.C12_zero",
    "Klavier.C12_edges"
   ],
   "note": "Nearest line, ties away from zero, odd, monotone, idempotent, for every non-zero 32-bit grid and every tick outside the outermost 2^32 of i64; C12_edges: over all of i64, exactly when snapping overflows."
  },
  {
   "property": "C13",
   "status": "proved",
   "theorems": [
    "Klavier.C13_roundtrip",
    "Klavier.C13_bar_no"
   ],
   "note": "Every 32-bit tick, every well-formed project (fewer than 2^32 bars)."
  },
  {
   "property": "C14",
   "status": "proved",
   "theorems": [
    "Klavier.C14_order"
   ],
   "note": "Order in both directions, exact offset, next bar bound."
  },
  {
   "property": "C15",
   "status": "partial",
   "theorems": [
    "Klavier.C15_exact_partial",
    "Klavier.C15_all",
    "Klavier.C15_overflow_false"
   ],
   "note": "Exact tick or overflow error whenever the exact tick fits 64 bits; an offset near 2^64 panics (wraps in release builds) instead: C15_overflow_false. C15_all is the result for every location."
  },
  {
   "property": "C16",
   "status": "proved",
   "theorems": [
    "Klavier.C16_tempo",
    "Klavier.C16_pedals",
    "Klavier.C16_rhythm_key"
   ],
   "note": "All five queries return the value of the latest carrying event at or before the tick, else the default."
  },
  {
   "property": "C17",
   "status": "proved",
   "theorems": [
    "Klavier.C17_max_end"
   ],
   "note": "Maximum over all notes, attained; no notes gives none; panic exactly when a note ends after the last 32-bit tick."
  },
  {
   "property": "C18",
   "status": "proved",
   "theorems": [
    "Klavier.C18_complete",
    "Klavier.C18_edit"
   ],
   "note": "Fewest regular bars covering everything, for every edit that adds or changes content; panics and non-termination (0/n signature from a hand-edited file) are stated."
  },
  {
   "property": "C19",
   "status": "proved",
   "theorems": [
    "Klavier.C19_undo"
   ],
   "note": "All twelve edits; illegal edits are in C23."
  },
  {
   "property": "C20",
   "status": "proved",
   "theorems": [
    "Klavier.C20_redo",
    "Klavier.C20_undo_redo"
   ],
   "note": "Exact for every edit; reopening a log is C21_prefix."
  },
  {
   "property": "C21",
   "status": "proved",
   "theorems": [
    "Klavier.C21_prefix",
    "Klavier.C21_undo_redo",
    "Klavier.C21_branch"
   ],
   "note": "All interleavings of legal edits, undo and redo."
  },
  {
   "property": "C22",
   "status": "proved",
   "theorems": [
    "Klavier.C22_edit",
    "Klavier.C22_sessions",
    "Klavier.C22_default",
    "Klavier.C22_default_values"
   ],
   "note": "All reachable states, legal or illegal edits."
  },
  {
   "property": "C23",
   "status": "partial",
   "theorems": [
    "Klavier.C23_stale_false",
    "Klavier.C23_duplicate_false",
    "Klavier.C23_present_partial",
    "Klavier.C23_stale_effect_partial",
    "Klavier.C23_undone_partial",
    "Klavier.C23_restored_iff"
   ],
   "note": "False: C23_stale_false, C23_duplicate_false. Proved: the exact effect of any edit and its undoing (C23_undone_partial), and exactly when undoing restores the project (C23_restored_iff)."
  },
  {
   "property": "C24",
   "status": "proved",
   "theorems": [
    "Klavier.C24_roundtrip",
    "Klavier.C24_import_wf",
    "Klavier.C24_import",
    "Klavier.C24_stable"
   ],
   "note": "Round trip, well-formed import, stability, and what import keeps."
  },
  {
   "property": "C25",
   "status": "proved",
   "theorems": [
    "Klavier.C25_two_stacks",
    "Klavier.C25_can",
    "Klavier.C25_iter",
    "Klavier.C25_zero_capacity",
    "Klavier.C25_default"
   ],
   "note": "Refinement to two bounded stacks for capacity at least 1, with the order of iter; capacity 0 behaves as capacity 1 for all calls (C25_zero_capacity)."
  },
  {
   "property": "C26",
   "status": "partial",
   "theorems": [
    "Klavier.C26_add",
    "Klavier.C26_consistent",
    "Klavier.C26_region",
    "Klavier.C26_readd_partial",
    "Klavier.C26_readd_false"
   ],
   "note": "Consistency of every set built by adding, exact acceptance and error contents proved. False: re-adding a present mark can be refused (C26_readd_false)."
  },
  {
   "property": "C27",
   "status": "partial",
   "theorems": [
    "Klavier.C27_accept",
    "Klavier.C27_order_partial",
    "Klavier.C27_same_set",
    "Klavier.C27_order_false",
    "Klavier.C27_some_iff",
    "Klavier.C27_every_iff"
   ],
   "note": "False (C27_order_false). Proved: the exact acceptance condition (C27_accept), order independence unless D.C. meets D.S. or Segno meets D.C. or an ending (C27_order_partial), that this proviso is exactly what separates the accepted collections acceptable in every order from the others (C27_every_iff), which collections some order can place (C27_some_iff), and that the resulting set does not depend on the order."
  },
  {
   "property": "C28",
   "status": "proved",
   "theorems": [
    "Klavier.C28_straight",
    "Klavier.C28_no_jump"
   ],
   "note": "For any list of bars without marks, and for sorted bars with marks that do not move the player."
  },
  {
   "property": "C29",
   "status": "proved",
   "theorems": [
    "Klavier.C29_rendered",
    "Klavier.C29_plays",
    "Klavier.C29_every_piece",
    "Klavier.C29_reads_uniquely"
   ],
   "note": "For every score of the grammar (sorted bars, no D.C./D.S.) and for every composed piece written down with the fewest bar lines; a score that renders reads in exactly one way."
  },
  {
   "property": "C30",
   "status": "partial",
   "theorems": [
    "Klavier.C30_rendered",
    "Klavier.C30_inside_repeat",
    "Klavier.C30_inside_endings",
    "Klavier.C30_mark_at_zero",
    "Klavier.C30_playable_iff",
    "Klavier.C30_recorded",
    "Klavier.C30_last_pass",
    "Klavier.C30_ds_partial",
    "Klavier.C30_dc_partial",
    "Klavier.C30_only_first",
    "Klavier.C30_inside_false",
    "Klavier.C30_mark_at_zero_false",
    "Klavier.C30_inside_endings_false"
   ],
   "note": "As stated it is false: C30_inside_false, C30_inside_endings_false, C30_mark_at_zero_false. Proved exactly, for every score that is rendered: what is played when the jump is outside the first passage and no mark is at tick 0 (C30_rendered), inside a first repeat (C30_inside_repeat: only the second pass), inside first endings (C30_inside_endings: panic), with a mark at tick 0 (C30_mark_at_zero: panic), and when it panics (C30_playable_iff)."
  },
  {
   "property": "C31",
   "status": "partial",
   "theorems": [
    "Klavier.C31_rendered",
    "Klavier.C31_ds_partial",
    "Klavier.C31_dc_partial"
   ],
   "note": "C31_rendered: for every rendered score with two Codas, with the provisos of C30 (which cannot be dropped, see there). Which Codas are refused is in C32."
  },
  {
   "property": "C32",
   "status": "partial",
   "theorems": [
    "Klavier.C32_reported",
    "Klavier.C32_accepts_iff",
    "Klavier.C32_refused",
    "Klavier.C32_only_fault",
    "Klavier.C32_no_panic_partial",
    "Klavier.C32_panics",
    "Klavier.C32_first",
    "Klavier.C32_first_panic",
    "Klavier.C32_panics_false"
   ],
   "note": "The claim \"never panics\" is false (C32_panics_false). Proved: an error returned always describes a fault the score has, at the bar lines named (C32_reported); a score is rendered exactly if it reads as passages and its jump fits (C32_accepts_iff); no score with a fault is rendered (C32_refused); a sole fault is returned (C32_only_fault); of several faults, exactly the one that comes to light first, by bar line and then by a fixed ranking, is returned (C32_first); rendering panics exactly if one of three arrangements comes to light first (C32_first_panic, C32_no_panic_partial, C32_panics)."
  },
  {
   "property": "C33",
   "status": "partial",
   "theorems": [
    "Klavier.C33_rule",
    "Klavier.C33_agrees",
    "Klavier.C33_documented_partial",
    "Klavier.C33_documented_false"
   ],
   "note": "The documented rule is false in general (C33_documented_false). Proved: the rule implemented (C33_rule), exactly when it agrees with the documented one (C33_agrees), and that the documented rule is followed then."
  },
  {
   "property": "C34",
   "status": "proved",
   "theorems": [
    "Klavier.C34_order",
    "Klavier.C34_merged",
    "Klavier.C34_idempotent",
    "Klavier.C34_boundaries"
   ],
   "note": "For chunks whose start is not after their end (every rendered chunk is, C50); merging and idempotence for all lists."
  },
  {
   "property": "C35",
   "status": "proved",
   "theorems": [
    "Klavier.C35_index",
    "Klavier.C35_long_panics"
   ],
   "note": "Chunks as rendering produces them (C50). An empty chunk before the last shares its key with the next one and is dropped, which changes nothing played. More than 32 bits of played time panics (C35_long_panics)."
  },
  {
   "property": "C36",
   "status": "partial",
   "theorems": [
    "Klavier.C36_position_partial",
    "Klavier.C36_any",
    "Klavier.C36_unique",
    "Klavier.C36_overflow_false"
   ],
   "note": "Exact for all inputs, including where it panics, and for index lists that no score renders to (C36_any); false as stated because an intermediate sum can overflow although the answer fits (C36_overflow_false)."
  },
  {
   "property": "C37",
   "status": "partial",
   "theorems": [
    "Klavier.C37_keeps_partial",
    "Klavier.C37_exact",
    "Klavier.C37_all",
    "Klavier.C37_equal",
    "Klavier.C37_many_false",
    "Klavier.C37_truncated_false"
   ],
   "note": "False for many notes: 256 equal notes panic (C37_many_false), 258 give denominator 2 (C37_truncated_false). Proved: whenever it returns, no note is lost or changed apart from start and denominator (C37_keeps_partial); the exact result or panic for every selection (C37_all)."
  },
  {
   "property": "C38",
   "status": "partial",
   "theorems": [
    "Klavier.C38_chord_false",
    "Klavier.C38_single_partial",
    "Klavier.C38_apart",
    "Klavier.C38_together_iff"
   ],
   "note": "False (C38_chord_false): notes of a chord are spread apart, and C38_apart shows this for every chord; hence, where a tuplet is made with shares of at least one tick, all chords stay together exactly if there are none (C38_together_iff). Proved: a selection that is one chord is left alone."
  },
  {
   "property": "C39",
   "status": "proved",
   "theorems": [
    "Klavier.C39_moved",
    "Klavier.C39_distances",
    "Klavier.C39_attributes",
    "Klavier.C39_empty",
    "Klavier.C39_stay",
    "Klavier.C39_sounding",
    "Klavier.C39_played_false",
    "Klavier.C39_wrap_false"
   ],
   "note": "Proved for every selection and tick that fit 32 bits: all ticks move by the same distance, the earliest item starts at the requested tick, nothing else changes. Beyond 32 bits ticks wrap silently (C39_wrap_false); the clamped played start may change its distance (C39_played_false)."
  },
  {
   "property": "C40",
   "status": "partial",
   "theorems": [
    "Klavier.C40_roundtrip_partial",
    "Klavier.C40_project",
    "Klavier.C40_project_roundtrip",
    "Klavier.C40_version",
    "Klavier.C40_empty",
    "Klavier.C40_accepted",
    "Klavier.C40_no_number",
    "Klavier.C40_tempo_false",
    "Klavier.C40_trimmer_false",
    "Klavier.C40_rate_false",
    "Klavier.C40_pitch_false"
   ],
   "note": "Round trip proved exactly for the selections that fit their types (iff); version and empty refusals exact. False for tempo 0, for trimmers whose total exceeds 16 bits (panic), for rates finer than a thousandth; some texts make paste panic."
  },
  {
   "property": "C41",
   "status": "proved",
   "theorems": [
    "Klavier.C41_sync",
    "Klavier.C41_panic"
   ],
   "note": "Any validator, any edits; panics exactly when validating one of the buffers panics."
  },
  {
   "property": "C42",
   "status": "partial",
   "theorems": [
    "Klavier.C42_unsigned",
    "Klavier.C42_i16",
    "Klavier.C42_velocity",
    "Klavier.C42_numerator",
    "Klavier.C42_denominator",
    "Klavier.C42_percent",
    "Klavier.C42_tempo_false",
    "Klavier.C42_tempo_partial",
    "Klavier.C42_location_false",
    "Klavier.C42_location_partial"
   ],
   "note": "False for the tempo field (C42_tempo_false: 1000 panics, 0 is accepted) and the location field (C42_location_false: a number beyond 64 bits panics; C42_location_partial: exactly which texts panic). Proved: exact result of every field on every text; percent for any float parser."
  },
  {
   "property": "C43",
   "status": "proved",
   "theorems": [
    "Klavier.C43_roundtrip",
    "Klavier.C43_parse",
    "Klavier.C43_refused"
   ],
   "note": "Round trip for all locations, exact reading of every text; texts a:b with an oversized number or a foreign digit panic (stated in C43_parse)."
  },
  {
   "property": "C44",
   "status": "proved",
   "theorems": [
    "Klavier.C44_first",
    "Klavier.C44_shared",
    "Klavier.C44_stable"
   ],
   "note": "All call sequences: first instance, shared exactly for equal values, stable."
  },
  {
   "property": "C45",
   "status": "proved",
   "theorems": [
    "Klavier.C45_clip",
    "Klavier.C45_clip_int",
    "Klavier.C45_monotone"
   ],
   "note": "For any irreflexive order; monotone for any asymmetric, negatively transitive one (C45_monotone); nearest point on integers."
  },
  {
   "property": "C46",
   "status": "partial",
   "theorems": [
    "Klavier.C46_nearest",
    "Klavier.C46_truncates",
    "Klavier.C46_rate_partial",
    "Klavier.C46_rate_false",
    "Klavier.C46_range",
    "Klavier.C46_special",
    "Klavier.C46_max"
   ],
   "note": "False for exactly ten values (C46_rate_false); proved for the other 1991 and the exact loss for the ten. C46_nearest and C46_truncates prove the rounding of the arithmetic against the definition of binary32 (the upper limit 2^128, which no rate reaches, is apart)."
  },
  {
   "property": "C47",
   "status": "proved",
   "theorems": [
    "Klavier.C47_rates",
    "Klavier.C47_length",
    "Klavier.C47_apply",
    "Klavier.C47_monotone",
    "Klavier.C47_longest"
   ],
   "note": "Exact floor formula, bound 3826, monotone."
  },
  {
   "property": "C48",
   "status": "partial",
   "theorems": [
    "Klavier.C48_drag_partial",
    "Klavier.C48_drag_all",
    "Klavier.C48_nearest_iff",
    "Klavier.C48_drag_false",
    "Klavier.C48_steps"
   ],
   "note": "Saturation at 999 proved while the sum stays in 1..65535; dragging below 0 jumps to 999 and to 0 gives an illegal tempo (C48_drag_false); the exact result of every drag is C48_drag_all, and exactly when it is the nearest legal tempo is C48_nearest_iff."
  },
  {
   "property": "C49",
   "status": "proved",
   "theorems": [
    "Klavier.C49_five",
    "Klavier.C49_selectable",
    "Klavier.C49_reached"
   ],
   "note": "For whatever renders (sorted bars below u32::MAX); five is reached."
  },
  {
   "property": "C50",
   "status": "proved",
   "theorems": [
    "Klavier.C50_chunks",
    "Klavier.C50_optimized"
   ],
   "note": "For whatever renders (sorted bars below u32::MAX); kept by Chunk::optimize."
  },
  {
   "property": "C51",
   "status": "partial",
   "theorems": [
    "Klavier.C51_accepted_partial",
    "Klavier.C51_stable",
    "Klavier.C51_project",
    "Klavier.C51_ranges_false"
   ],
   "note": "Every accepted selection fits its types and is stable under copy and paste; channel, dots, numerator and key ranges are not checked (C51_ranges_false)."
  },
  {
   "property": "C52",
   "status": "proved",
   "theorems": [
    "Klavier.C52_kind",
    "Klavier.C52_content",
    "Klavier.C52_overwritten"
   ],
   "note": "C52_kind, C52_content and C52_overwritten give the recorded command of every edit: settings with old and new value; items put in, completed bars behind all others, items taken away, the hint. The exact list of overwritten items is for legal edits (distinct ticks within what is put in); for a tuplet the notes are those of C37."
  },
  {
   "property": "C53",
   "status": "partial",
   "theorems": [
    "Klavier.C53_document_partial",
    "Klavier.C53_project_partial",
    "Klavier.C53_bytes",
    "Klavier.C53_trimmer_false",
    "Klavier.C53_tempo_false",
    "Klavier.C53_rate_false",
    "Klavier.C53_project_iff"
   ],
   "note": "C53_document_partial is an equivalence: exactly the documents whose data fit their types (SavableDocument) come back, and C53_project_iff says the same of a whole project in order. C53_trimmer_false, C53_tempo_false and C53_rate_false show data the constructors allow for which the claim fails. Bytes are those of bincode 1 as assumed in section 2."
  },
  {
   "property": "C54",
   "status": "proved",
   "theorems": [
    "Klavier.C54_opened",
    "Klavier.C54_ranges",
    "Klavier.C54_unchecked"
   ],
   "note": "For all byte sequences. C54_unchecked shows which ranges are not checked (the title claims only what is proved)."
  },
  {
   "property": "C55",
   "status": "partial",
   "theorems": [
    "Klavier.C55_command_partial",
    "Klavier.C55_read",
    "Klavier.C55_session_partial",
    "Klavier.C55_state",
    "Klavier.C55_session_iff",
    "Klavier.C55_stopped",
    "Klavier.C55_trimmer_false"
   ],
   "note": "C55_session_iff: a session of legal edits is opened as it was exactly if its base and all its commands have data that fit their types (with fewer than 2^62 items of a kind); C55_session_partial says which edits record such commands, C55_trimmer_false shows a legal edit after which the session cannot be opened. C55_stopped: every point at which storing may have stopped. That the crate serdo stores the base and each command as bytes, and a position among the stored commands, is assumed; a command whose bytes are cut short is refused (C56)."
  },
  {
   "property": "C56",
   "status": "proved",
   "theorems": [
    "Klavier.C56_project",
    "Klavier.C56_command"
   ],
   "note": "Every strict prefix, for every project and command whose data fit their types; for other data see the panics of C53."
  },
  {
   "property": "C58",
   "status": "proved",
   "theorems": [
    "Klavier.C58_product",
    "Klavier.C58_exact",
    "Klavier.C58_single",
    "Klavier.C58_one"
   ],
   "note": "For all stored rates, with a proved bound on the error of the three rounded multiplications (C58_product); exact whenever the product is not within a millionth of a whole thousandth (C58_exact)."
  },
  {
   "property": "C59",
   "status": "partial",
   "theorems": [
    "Klavier.C59_reload_partial",
    "Klavier.C59_reload_false",
    "Klavier.C59_stable",
    "Klavier.C59_single_iff"
   ],
   "note": "False for rates which are cut off or finer than a thousandth, and for ten rates of a thousandth (C59_reload_false). Proved for all other combinations of thousandths (C59_reload_partial); for one rate that may be any binary32 number, exactly when the trimmer comes back the same (C59_single_iff)."
  },
  {
   "property": "C60",
   "status": "proved",
   "theorems": [
    "Klavier.C60_note_value",
    "Klavier.C60_accepts",
    "Klavier.C60_tempo_steps",
    "Klavier.C60_endings",
    "Klavier.C60_octaves",
    "Klavier.C60_trimmer",
    "Klavier.C60_updated",
    "Klavier.C60_rate_trimmer",
    "Klavier.C60_play_iter",
    "Klavier.C60_defaults"
   ],
   "note": "Exact result of each constructor and conversion on every number; legality of every default."
  },
  {
   "property": "C61",
   "status": "partial",
   "theorems": [
    "Klavier.C61_grid_partial",
    "Klavier.C61_grid_refused",
    "Klavier.C61_grid_text_false",
    "Klavier.C61_roundtrip",
    "Klavier.C61_shown_apart"
   ],
   "note": "Reading is exact and what is shown is read back; false only for the error text of a zero grid (C61_grid_text_false), exact in C61_grid_refused. The text of percentages is the subject of C68."
  },
  {
   "property": "C62",
   "status": "partial",
   "theorems": [
    "Klavier.C62_trimmer",
    "Klavier.C62_rate_partial",
    "Klavier.C62_rate_false"
   ],
   "note": "Proved for trimmers; for rate trimmers only equality of everything held (C62_rate_partial), the rest is false (C62_rate_false)."
  },
  {
   "property": "C63",
   "status": "proved",
   "theorems": [
    "Klavier.C63_pitch",
    "Klavier.C63_step_back",
    "Klavier.C63_dots",
    "Klavier.C63_dots_overflow",
    "Klavier.C63_dots_back",
    "Klavier.C63_length",
    "Klavier.C63_tie",
    "Klavier.C63_valid"
   ],
   "note": "Exact result of every edit; dots for any note and any 32-bit number."
  },
  {
   "property": "C64",
   "status": "partial",
   "theorems": [
    "Klavier.C64_selection",
    "Klavier.C64_pitch_false",
    "Klavier.C64_pitch_partial",
    "Klavier.C64_note"
   ],
   "note": "Notes: proved. Pitches: false (C64_pitch_false); C64_pitch_partial says exactly which builders make a legal pitch. What derive_builder generates is assumed."
  },
  {
   "property": "C57",
   "status": "partial",
   "theorems": [
    "Klavier.C57_enforced_partial",
    "Klavier.C57_segno_after_fine_false",
    "Klavier.C57_idle_marks_false",
    "Klavier.C57_dc_marks_false",
    "Klavier.C57_coda_at_fine_false",
    "Klavier.C57_one_ending_false",
    "Klavier.C57_repeat_in_common_false",
    "Klavier.C57_idle"
   ],
   "note": "Which rules are enforced is proved (C57_enforced_partial); each of the others is refuted by a score that is rendered (C57_segno_after_fine_false, C57_idle_marks_false, C57_dc_marks_false, C57_coda_at_fine_false, C57_one_ending_false, C57_repeat_in_common_false). C57_idle: marks without a jump never change what is played."
  },
  {
   "property": "C65",
   "status": "proved",
   "theorems": [
    "Klavier.C65_settings",
    "Klavier.C65_refused",
    "Klavier.C65_plain",
    "Klavier.C65_content",
    "Klavier.C65_tuplet_error"
   ],
   "note": "C65_settings, C65_plain (adding a bar, removing), C65_content (all others: exact result or failure), C65_refused, C65_tuplet_error. Edited and ItemsAfter (Spec/Project) say what is in the project after the edit."
  },
  {
   "property": "C66",
   "status": "partial",
   "theorems": [
    "Klavier.C66_fig1",
    "Klavier.C66_fig2",
    "Klavier.C66_fig3",
    "Klavier.C66_fig4",
    "Klavier.C66_fig5",
    "Klavier.C66_fig6",
    "Klavier.C66_fig7",
    "Klavier.C66_fig8",
    "Klavier.C66_fig8_3",
    "Klavier.C66_fig8_4",
    "Klavier.C66_fig9",
    "Klavier.C66_fig9_1",
    "Klavier.C66_fig8_1_partial",
    "Klavier.C66_fig8_1_false",
    "Klavier.C66_fig8_2_partial",
    "Klavier.C66_fig8_2_false",
    "Klavier.C66_unmarked_false"
   ],
   "note": "Proved for all bar lengths, except figure 8-1 (upbeat, short D.C. bar: false unless the upbeat is half a bar, C66_fig8_1_false) and figure 8-2 (upbeat, full D.C. bar: false if the upbeat is half a bar, C66_fig8_2_false); C66_fig8_1_partial and C66_fig8_2_partial are the other cases. The figures were read from the drawio sources in docs/repeat. Each bar of an ending must carry the number (C66_unmarked_false)."
  },
  {
   "property": "C67",
   "status": "proved",
   "theorems": [
    "Klavier.C67_text",
    "Klavier.C67_trailing",
    "Klavier.C67_members",
    "Klavier.C67_strings",
    "Klavier.C67_skipped"
   ],
   "note": "C67_text (the text), C67_members (AnObject for all thirteen types), C67_trailing, C67_strings and C67_skipped (both directions). What derived Serialize/Deserialize and serde_json do is assumed as modelled."
  },
  {
   "property": "C68",
   "status": "partial",
   "theorems": [
    "Klavier.C68_shown",
    "Klavier.C68_reads",
    "Klavier.C68_same",
    "Klavier.C68_roundtrip_partial",
    "Klavier.C68_roundtrip_false",
    "Klavier.C68_entered"
   ],
   "note": "C68_shown (the text of every rate), C68_reads (exactly which texts are read, and as which number), C68_same, C68_entered; that what is shown is read back as the same rate is false for ten rates (C68_roundtrip_false), exact in C68_roundtrip_partial. Reading and showing f32 is modelled after the documentation of the standard library."
  },
  {
   "property": "C69",
   "status": "proved",
   "theorems": [
    "Klavier.C69_edit",
    "Klavier.C69_silent",
    "Klavier.C69_undo",
    "Klavier.C69_session"
   ],
   "note": "C69_edit, C69_silent, C69_undo, C69_session. The queues are in klavier_helper; modelled are the calls that fill them, in order for each collection."
  },
  {
   "property": "C70",
   "status": "partial",
   "theorems": [
    "Klavier.C70_edit",
    "Klavier.C70_undo",
    "Klavier.C70_redo_partial",
    "Klavier.C70_redo_false"
   ],
   "note": "C70_edit and C70_undo say what is announced with which hint; that redo announces the same as the edit is false (C70_redo_false): it gives the hint to completed bars as well. Exact in C70_redo_partial."
  },
  {
   "property": "C71",
   "status": "proved",
   "theorems": [
    "Klavier.C71_json",
    "Klavier.C71_read",
    "Klavier.C71_paste",
    "Klavier.C71_import"
   ],
   "note": "C71_json (the grammar), C71_read, C71_paste, C71_import, both directions. JsonText and IsSelection/IsClipProject are defined without the reader. Members that are not known are skipped, with fewer checks (MemberText.skipped). What serde_json does is assumed as modelled."
  },
  {
   "property": "C72",
   "status": "partial",
   "theorems": [
    "Klavier.C72_octave_false",
    "Klavier.C72_octave_partial",
    "Klavier.C72_pitch_false",
    "Klavier.C72_pitch_partial",
    "Klavier.C72_pitch_text",
    "Klavier.C72_render_text",
    "Klavier.C72_render_bars"
   ],
   "note": "C72_render_text and C72_render_bars (rendering), C72_pitch_text. False for octaves (C72_octave_false: the number shown is two higher; exact in C72_octave_partial) and for stepping down from the lowest C (C72_pitch_false; exactly that case by C72_pitch_partial). Derived Debug is modelled after its documentation."
  },
  {
   "property": "C73",
   "status": "proved",
   "theorems": [
    "Klavier.C73_macro",
    "Klavier.C73_len",
    "Klavier.C73_most"
   ],
   "note": "C73_macro (exactly which lists panic), C73_len, C73_most."
  },
  {
   "property": "C74",
   "status": "proved",
   "theorems": [
    "Klavier.C74_calls",
    "Klavier.C74_order",
    "Klavier.C74_refused",
    "Klavier.C74_dc",
    "Klavier.C74_dc_ds"
   ],
   "note": "C74_calls (exactly which calls are accepted and what is held), C74_order, C74_refused (which error), C74_dc, C74_dc_ds. The builder is driven directly here; over the bars of a score see C28 to C33."
  },
  {
   "property": "C75",
   "status": "proved",
   "theorems": [
    "Klavier.C75_values",
    "Klavier.C75_notes",
    "Klavier.C75_project",
    "Klavier.C75_render"
   ],
   "note": "C75_values, C75_notes, C75_project (every sequence of edits, undo, redo), C75_render. The build without checks is modelled function by function in Model/Release.lean; the crates klavier_helper and serdo are taken as unchanged, and std as usual (shift amounts are masked)."
  },
  {
   "property": "C76",
   "status": "partial",
   "theorems": [
    "Klavier.C76_start",
    "Klavier.C76_location_partial",
    "Klavier.C76_location_false",
    "Klavier.C76_trimmer_partial",
    "Klavier.C76_trimmer_false",
    "Klavier.C76_added",
    "Klavier.C76_pitch",
    "Klavier.C76_dots",
    "Klavier.C76_length",
    "Klavier.C76_tempo",
    "Klavier.C76_snap_false",
    "Klavier.C76_snap_partial",
    "Klavier.C76_bars",
    "Klavier.C76_hang_partial",
    "Klavier.C76_hang_false",
    "Klavier.C76_note_false",
    "Klavier.C76_render_partial",
    "Klavier.C76_render_right",
    "Klavier.C76_render_false",
    "Klavier.C76_tuple_partial",
    "Klavier.C76_tuple_false"
   ],
   "note": "False for locations (C76_location_false), trimmers made from an array (C76_trimmer_false), snapping (C76_snap_false), the completion of bars, which may never end (C76_hang_false), notes ending after 2^32 ticks (C76_note_false), tuplets at the last ticks (C76_tuple_false), and a D.C. after certain first bars (C76_render_false). Exact results: C76_start, C76_location_partial, C76_trimmer_partial, C76_added, C76_pitch, C76_dots, C76_length, C76_tempo, C76_snap_partial, C76_bars, C76_hang_partial, C76_tuple_partial, C76_render_partial (with C76_render_right: when it is right). Not given: scores with a jump and a mark at tick 0, because what intervallum does with ends that have wrapped is not known."
  },
  {
   "property": "C77",
   "status": "partial",
   "theorems": [
    "Klavier.C77_octave",
    "Klavier.C77_letter_false",
    "Klavier.C77_letter_partial"
   ],
   "note": "True for octaves (C77_octave). False for letters (C77_letter_false: C += -1 stays C, B -= -1 stays B); exact results and panics for every 32-bit number in C77_letter_partial. The library itself only adds and subtracts 1 (C02)."
  },
  {
   "property": "C78",
   "status": "partial",
   "theorems": [
    "Klavier.C78_i16",
    "Klavier.C78_unsigned",
    "Klavier.C78_beyond_false",
    "Klavier.C78_junk_false",
    "Klavier.C78_beyond_partial"
   ],
   "note": "False in two ways: a numerator or denominator above 255 is reported as no number (C78_beyond_false), and a text that begins with too large a number is reported as a number too large although more follows (C78_junk_false). Exactly which texts give which error: C78_i16, C78_unsigned, C78_beyond_partial. The errors of the location field (only one) and of the percent field are in C42."
  },
  {
   "property": "C79",
   "status": "partial",
   "theorems": [
    "Klavier.C79_signatures",
    "Klavier.C79_tune",
    "Klavier.C79_line_partial",
    "Klavier.C79_first_false",
    "Klavier.C79_ending_false",
    "Klavier.C79_completed_partial",
    "Klavier.C79_edit_partial",
    "Klavier.C79_completed_false"
   ],
   "note": "True for keys and time signatures (C79_signatures) and the time signature of the tune (C79_tune). Plain bar lines: false inside an ending (C79_ending_false) and for the first bar line when there is a D.C. (C79_first_false); true otherwise (C79_line_partial). Completion of bars and edits that touch no bar line: C79_completed_partial, C79_edit_partial, with C79_completed_false showing that their two provisos are needed."
  },
  {
   "property": "C80",
   "status": "partial",
   "theorems": [
    "Klavier.C80_portions_partial",
    "Klavier.C80_single",
    "Klavier.C80_order_partial",
    "Klavier.C80_order_iff",
    "Klavier.C80_delete",
    "Klavier.C80_phrase",
    "Klavier.C80_back_partial",
    "Klavier.C80_back_iff",
    "Klavier.C80_portions_false",
    "Klavier.C80_order_false",
    "Klavier.C80_back_false"
   ],
   "note": "Two portions against one, with success of each way equivalent: C80_portions_partial (any number of notes one by one: C80_phrase; single additions: C80_single); false if the second portion has bars (C80_portions_false). Order: C80_order_partial; false for things that take the place of each other (C80_order_false); without bars, one order succeeds exactly with the other, and the results agree exactly if the last tempo and pedals of both at a common tick do (C80_order_iff). Deletion: C80_delete, no proviso. Deleting what was just added: C80_back_partial; what the addition replaced is lost (C80_back_false); exactly what is left, and exactly when it is what there was before: C80_back_iff."
  },
  {
   "property": "C81",
   "status": "partial",
   "theorems": [
    "Klavier.C81_place",
    "Klavier.C81_values",
    "Klavier.C81_location_partial",
    "Klavier.C81_location_iff",
    "Klavier.C81_edit",
    "Klavier.C81_noted",
    "Klavier.C81_bar",
    "Klavier.C81_location_false"
   ],
   "note": "Ticks of locations and values in force: C81_place, C81_values, C81_edit, C81_noted, no proviso beyond the statement. Locations of ticks: unchanged before the first completed bar line, and exactly given from there on (C81_location_partial), where they do change (C81_location_iff, C81_location_false). New bar line: C81_bar."
  },
  {
   "property": "C82",
   "status": "proved",
   "theorems": [
    "Klavier.C82_lengths",
    "Klavier.C82_proviso",
    "Klavier.C82_lines",
    "Klavier.C82_joined"
   ],
   "note": "C82_lengths (outcomes, warnings, errors and panics included), C82_lines and C82_joined hold with the proviso of the statement and no other; a D.C. without a Segno whose first bar is full, or half of a full one, in one score only goes to another place (C82_proviso)."
  },
  {
   "property": "C83",
   "status": "proved",
   "theorems": [
    "Klavier.C83_steps",
    "Klavier.C83_still",
    "Klavier.C83_back"
   ],
   "note": "C83_steps (two steps against one, with an exact condition for tempos and pedals, and the bars), C83_back (there and back), C83_still (no change)."
  },
  {
   "property": "C84",
   "status": "proved",
   "theorems": [
    "Klavier.C84_moved",
    "Klavier.C84_values",
    "Klavier.C84_places",
    "Klavier.C84_play",
    "Klavier.C84_back",
    "Klavier.C84_provisos"
   ],
   "note": "C84_moved (the change yields exactly the moved project), C84_values, C84_places, C84_play and C84_back, each with the provisos of the statement; C84_provisos shows three of them are needed (a bar line at tick 0, a D.C. without Segno, a note cut off at tick 0). A note whose pitch cannot be dragged (C03) makes the drag panic before there is a change."
  },
  {
   "property": "C85",
   "status": "proved",
   "theorems": [
    "Klavier.C85_cut",
    "Klavier.C85_back",
    "Klavier.C85_order"
   ],
   "note": "C85_cut (by way of the clipboard text, with equal outcomes of the two edits, panics included), C85_back (pasted where it was), C85_order (pasting before deleting is not the same). The drag of every thing of the selection is assumed to succeed; a note whose pitch cannot be dragged (C03) can still be cut and pasted."
  },
  {
   "property": "C86",
   "status": "proved",
   "theorems": [
    "Klavier.C86_jumps",
    "Klavier.C86_ends",
    "Klavier.C86_whole"
   ],
   "note": "C86_jumps (neighbouring ticks), C86_ends (first and last tick), C86_whole (no bar is cut); for every score that render_region accepts and to_chunks does not panic on."
  },
  {
   "property": "C87",
   "status": "partial",
   "theorems": [
    "Klavier.C87_straight",
    "Klavier.C87_jump_partial",
    "Klavier.C87_before_partial",
    "Klavier.C87_ending_false",
    "Klavier.C87_before_false"
   ],
   "note": "True without a jump (C87_straight). With one, C87_jump_partial says exactly what is heard; C87_before_partial: everything before the jump if no End follows it, and everything from its target on if there are no Fine, Codas and endings. False in general: an ending other than the last after the D.C. is never heard (C87_ending_false), nor is what precedes the target of a D.C. that lies in a first repeat (C87_before_false)."
  },
  {
   "property": "C88",
   "status": "proved",
   "theorems": [
    "Klavier.C88_repeat",
    "Klavier.C88_fine",
    "Klavier.C88_codas",
    "Klavier.C88_fine_accepts_iff",
    "Klavier.C88_codas_accepts_iff",
    "Klavier.C88_idle",
    "Klavier.C88_coda_alone",
    "Klavier.C88_codas_proviso",
    "Klavier.C88_repeat_proviso"
   ],
   "note": "C88_repeat, C88_fine, C88_codas, each with the provisos of the statement; C88_fine_accepts_iff, C88_codas_accepts_iff: exactly when the marked score is accepted; C88_coda_alone, C88_idle: a lone Coda, and these marks without a jump; C88_repeat_proviso and C88_codas_proviso show that they are needed (within a repeat a repeat is refused, at the beginning of a score with a jump playing panics, Codas before the target of the jump lengthen the second pass)."
  },
  {
   "property": "C89",
   "status": "proved",
   "theorems": [
    "Klavier.C89_again",
    "Klavier.C89_moved",
    "Klavier.C89_order",
    "Klavier.C89_chord_proviso",
    "Klavier.C89_short_proviso"
   ],
   "note": "C89_again, C89_moved, C89_order; C89_chord_proviso and C89_short_proviso show that the provisos are needed."
  },
  {
   "property": "C90",
   "status": "proved",
   "theorems": [
    "Klavier.C90_accepts",
    "Klavier.C90_played",
    "Klavier.C90_implicit",
    "Klavier.C90_number_proviso",
    "Klavier.C90_jump_proviso"
   ],
   "note": "C90_accepts, C90_played; C90_implicit: a Start at tick 0 can be left out; C90_number_proviso and C90_jump_proviso show that the provisos are needed (for C90_implicit with a jump see C30_mark_at_zero_false)."
  },
  {
   "property": "C91",
   "status": "proved",
   "theorems": [
    "Klavier.C91_every",
    "Klavier.C91_order",
    "Klavier.C91_merged",
    "Klavier.C91_proviso"
   ],
   "note": "C91_every, C91_order, C91_merged, with the proviso of the statement; C91_proviso shows that it is needed."
  },
  {
   "property": "C92",
   "status": "proved",
   "theorems": [
    "Klavier.C92_order",
    "Klavier.C92_position",
    "Klavier.C92_times",
    "Klavier.C92_unique"
   ],
   "note": "C92_order (the sequence, the same for all lengths), C92_unique, C92_position, C92_times. The position is given if it and the tick together fit 32 bits (C91_proviso); what follows the last bar line counts as a bar that ends at u32::MAX."
  },
  {
   "property": "C93",
   "status": "proved",
   "theorems": [
    "Klavier.C93_clear",
    "Klavier.C93_follow",
    "Klavier.C93_resume",
    "Klavier.C93_once"
   ],
   "note": "C93_clear, C93_follow, C93_resume, C93_once. The queues hold the calls that give rise to the events (the events are made in the crate klavier_helper); whether irreversible_mutate of serdo keeps the recorded commands is not known and is a parameter."
  },
  {
   "property": "C94",
   "status": "proved",
   "theorems": [
    "Klavier.C94_ds",
    "Klavier.C94_dc",
    "Klavier.C94_dc_as_ds",
    "Klavier.C94_dc_as_ds_iff",
    "Klavier.C94_dc_with_segno",
    "Klavier.C94_refused",
    "Klavier.C94_dc_accepts_iff",
    "Klavier.C94_ds_accepts_iff",
    "Klavier.C94_proviso",
    "Klavier.C94_dc_as_ds_proviso"
   ],
   "note": "C94_ds, C94_dc, C94_refused; C94_dc_accepts_iff, C94_ds_accepts_iff: exactly when the marked score is accepted; C94_dc_as_ds: a D.C. plays what a D.S. with the Segno at the place it goes back to plays; C94_dc_as_ds_iff: on any score without jump and Segno, exactly when the D.S. is accepted if the D.C. is, and then the chunks are the same; C94_dc_with_segno: the same where a Segno is written, to which the D.C. goes with a warning; C94_dc_as_ds_proviso: not so with that place inside a first ending or with a lone Coda, where the D.C. is accepted and the D.S. refused; C94_proviso shows that the other provisos are needed (within a repeat at the beginning of the score the first pass is left out, with a mark at tick 0 playing panics)."
  },
  {
   "property": "C95",
   "status": "proved",
   "theorems": [
    "Klavier.C95_endings",
    "Klavier.C95_proviso"
   ],
   "note": "C95_endings; C95_proviso shows that the provisos are needed (a Segno in an ending that is left out is refused, with a jump and a Start at tick 0 playing panics, a bar line behind the endings that has a number of its own lengthens the last ending)."
  },
  {
   "property": "C96",
   "status": "proved",
   "theorems": [
    "Klavier.C96_edit",
    "Klavier.C96_session",
    "Klavier.C96_default",
    "Klavier.C96_questions",
    "Klavier.C96_limit"
   ],
   "note": "C96_edit, C96_session, C96_default, C96_questions; C96_limit shows that a limit is needed. The tick of a location is had for offsets up to 2^63. What the database and the change events do is outside of the model."
  },
  {
   "property": "C97",
   "status": "partial",
   "theorems": [
    "Klavier.C97_one_list",
    "Klavier.C97_silent_iff",
    "Klavier.C97_fewest_partial",
    "Klavier.C97_fewest_iff",
    "Klavier.C97_fewest_false",
    "Klavier.C97_same_partial"
   ],
   "note": "False: C97_fewest_false: if the first of two or more endings begins at tick 0, merging leaves chunks that play nothing. C97_silent_iff and C97_fewest_iff show that this is exactly the exception; for all other scores C97_fewest_partial and C97_same_partial. C97_one_list is about all lists of chunks."
  },
  {
   "property": "C98",
   "status": "proved",
   "theorems": [
    "Klavier.C98_text",
    "Klavier.C98_file",
    "Klavier.C98_command",
    "Klavier.C98_project",
    "Klavier.C98_rates",
    "Klavier.C98_order"
   ],
   "note": "C98_text, C98_file, C98_command, C98_project; C98_rates shows that the exception is real, C98_order that the order of notes that sound together is part of the file. JSON text and bincode bytes as assumed in section 2."
  },
  {
   "property": "C99",
   "status": "proved",
   "theorems": [
    "Klavier.C99_passage",
    "Klavier.C99_straight",
    "Klavier.C99_jump",
    "Klavier.C99_asked"
   ],
   "note": "C99_passage, C99_straight, C99_jump, C99_asked. The number reported is given for scores whose chunks can be put in order of playing (see C36)."
  }
 ]
}