{
 "claims": [
  {
   "property": "C01",
   "status": "proved",
   "theorems": [
    "Verif.Props.C01_progress_in_unit",
    "Verif.Props.C01_progress_follows_stepper"
   ],
   "note": "Any stepper (any state machine, NaN and infinities included), any history containing a Step."
  },
  {
   "property": "C02",
   "status": "proved",
   "theorems": [
    "Verif.Props.C02_step_result"
   ],
   "note": ""
  },
  {
   "property": "C03",
   "status": "proved",
   "theorems": [
    "Verif.Props.C03_linear_total",
    "Verif.Props.C03_linear_batching",
    "Verif.Props.C03_linear_monotone"
   ],
   "note": "Exact arithmetic."
  },
  {
   "property": "C04",
   "status": "proved",
   "theorems": [
    "Verif.Props.C04_linear_progress",
    "Verif.Props.C04_linear_completion",
    "Verif.Props.C04_linear_stays_finished",
    "Verif.Props.C04_zero_length"
   ],
   "note": "Exact arithmetic."
  },
  {
   "property": "C05",
   "status": "proved",
   "theorems": [
    "Verif.Props.C05_reverse_outputs",
    "Verif.Props.C05_reverse_reverse",
    "Verif.Props.C05_reverse_progress",
    "Verif.Props.C05_nan"
   ],
   "note": ""
  },
  {
   "property": "C06",
   "status": "proved",
   "theorems": [
    "Verif.Props.C06_copies_independent",
    "Verif.Props.C06_copy_keeps_progress",
    "Verif.Props.C06_given_keeps_progress"
   ],
   "note": "Includes the constructor calling the caller's stepper with 0."
  },
  {
   "property": "C07",
   "status": "partial",
   "theorems": [
    "Verif.Props.C07_constructor_not_clamped",
    "Verif.Props.C07_initial_progress_partial",
    "Verif.Props.C07_linear_iff_partial",
    "Verif.Props.C07_zero_length_is_nan"
   ],
   "note": "False in general: the constructor does not clamp (C07_constructor_not_clamped). C07_linear_iff_partial says exactly when it holds for linear steppers that were used before."
  },
  {
   "property": "C08",
   "status": "proved",
   "theorems": [
    "Verif.Props.C08_bounce_end",
    "Verif.Props.C08_bounce_start"
   ],
   "note": ""
  },
  {
   "property": "C09",
   "status": "proved",
   "theorems": [
    "Verif.Props.C09_bounce_envelope",
    "Verif.Props.C09_single_bounce"
   ],
   "note": ""
  },
  {
   "property": "C10",
   "status": "partial",
   "theorems": [
    "Verif.Props.C10_bounce_can_mirror",
    "Verif.Props.C10_each_count_can_mirror",
    "Verif.Props.C10_bounce_positive_partial",
    "Verif.Props.C10_every_count_iff"
   ],
   "note": "False in general: three bounces between 0.1 and 3 mirror the surface (C10_bounce_can_mirror). Positive for one bounce or maximum at most twice the initial scale. C10_every_count_iff: exactly these scales are safe for every bounce count."
  },
  {
   "property": "C11",
   "status": "proved",
   "theorems": [
    "Verif.Props.C11_bounce_middle_fixed"
   ],
   "note": ""
  },
  {
   "property": "C12",
   "status": "proved",
   "theorems": [
    "Verif.Props.C12_zoom_interpolates",
    "Verif.Props.C12_zoom_interpolates_current",
    "Verif.Props.C12_zoom_ends"
   ],
   "note": "Boxes with area as given; degenerate boxes as reported by the getters."
  },
  {
   "property": "C13",
   "status": "proved",
   "theorems": [
    "Verif.Props.C13_zoom_finite",
    "Verif.Props.C13_zoom_boxes"
   ],
   "note": ""
  },
  {
   "property": "C14",
   "status": "proved",
   "theorems": [
    "Verif.Props.C14_bounce_extremes",
    "Verif.Props.C14_zoom_extremes",
    "Verif.Props.C14_glide_extremes",
    "Verif.Props.C14_finite"
   ],
   "note": ""
  },
  {
   "property": "C15",
   "status": "partial",
   "theorems": [
    "Verif.Props.C15_glide_end_depth",
    "Verif.Props.C15_glide_end_partial"
   ],
   "note": "False in general: the final depth is -1/screenWidth (C15_glide_end_depth). x, y and w are exact."
  },
  {
   "property": "C16",
   "status": "proved",
   "theorems": [
    "Verif.Props.C16_glide_rigid"
   ],
   "note": ""
  },
  {
   "property": "C17",
   "status": "proved",
   "theorems": [
    "Verif.Props.C17_lamp",
    "Verif.Props.C17_setters_defer",
    "Verif.Props.C17_bounce",
    "Verif.Props.C17_glide",
    "Verif.Props.C17_zoom"
   ],
   "note": "All four animations; the lamp as long as the resolution is kept, Zoom for a From box with area."
  },
  {
   "property": "C18",
   "status": "proved",
   "theorems": [
    "Verif.Props.C18_lamp_ends_at_target",
    "Verif.Props.C18_uv_ends_at_target"
   ],
   "note": "Any history that keeps the resolution; parameters in the GObject ranges, stretch below 1, tops different, at least 2x2."
  },
  {
   "property": "C19",
   "status": "partial",
   "theorems": [
    "Verif.Props.C19_lamp_starts_at_source_partial",
    "Verif.Props.C19_lamp_start_not_source",
    "Verif.Props.C19_uv_starts_at_source_partial",
    "Verif.Props.C19_lamp_start_iff"
   ],
   "note": "False in general (C19_lamp_start_not_source). Proved for targets above the source; C19_lamp_start_iff says exactly for which parameters it holds."
  },
  {
   "property": "C20",
   "status": "proved",
   "theorems": [
    "Verif.Props.C20_lamp_between"
   ],
   "note": ""
  },
  {
   "property": "C21",
   "status": "partial",
   "theorems": [
    "Verif.Props.C21_lamp_finite_partial",
    "Verif.Props.C21_stretch_one_nan",
    "Verif.Props.C21_one_wide_nan",
    "Verif.Props.C21_equal_tops_nan",
    "Verif.Props.C21_lamp_finite_iff"
   ],
   "note": "False at stretch 1, for one-wide grids and equal tops (negations proved). Proved elsewhere; C21_lamp_finite_iff says exactly for which parameters it holds."
  },
  {
   "property": "C22",
   "status": "proved",
   "theorems": [
    "Verif.Props.C22_uv_after_step",
    "Verif.Props.C22_uv_in_bounds",
    "Verif.Props.C22_uv_lattice",
    "Verif.Props.C22_uv_hull"
   ],
   "note": "C22_uv_after_step is about the grid a Step makes."
  },
  {
   "property": "C23",
   "status": "partial",
   "theorems": [
    "Verif.Props.C23_uv_out_of_bounds",
    "Verif.Props.C23_uv_safe_iff",
    "Verif.Props.C23_uv_memory_safe_partial"
   ],
   "note": "False in general: uv is not clamped (C23_uv_out_of_bounds). C23_uv_safe_iff says exactly which uv are safe."
  },
  {
   "property": "C24",
   "status": "partial",
   "theorems": [
    "Verif.Props.C24_steps_iff",
    "Verif.Props.C24_extremes_iff",
    "Verif.Props.C24_larger_resolution_ub",
    "Verif.Props.C24_resolution_safe_partial"
   ],
   "note": "False in general (C24_larger_resolution_ub). Safe while no resolution has more vertices than the first; C24_steps_iff and C24_extremes_iff say exactly when a history is defined."
  },
  {
   "property": "C25",
   "status": "proved",
   "theorems": [
    "Verif.Props.C25_extremes_corners"
   ],
   "note": ""
  },
  {
   "property": "C26",
   "status": "partial",
   "theorems": [
    "Verif.Props.C26_vec4_assign_differs",
    "Verif.Props.C26_vec4_copy_partial",
    "Verif.Props.C26_point_assign",
    "Verif.Props.C26_point_equals"
   ],
   "note": "False for Vector4D assignment (C26_vec4_assign_differs, an equivalence). Proved for points and for copy construction."
  },
  {
   "property": "C27",
   "status": "proved",
   "theorems": [
    "Verif.Props.C27_contains_closed",
    "Verif.Props.C27_contains_translate",
    "Verif.Props.C27_contains_convex",
    "Verif.Props.C27_axis_point"
   ],
   "note": ""
  },
  {
   "property": "C28",
   "status": "proved",
   "theorems": [
    "Verif.Props.C28_grab_nearest",
    "Verif.Props.C28_grab_defined"
   ],
   "note": "When the call returns (it may also run forever, see C41)."
  },
  {
   "property": "C29",
   "status": "partial",
   "theorems": [
    "Verif.Props.C29_lone_grab",
    "Verif.Props.C29_out_of_range_never_settles",
    "Verif.Props.C29_range_moves_grabbed",
    "Verif.Props.C29_grabbed_point_partial",
    "Verif.Props.C29_snap_moves_grabbed"
   ],
   "note": "False in general: C29_snap_moves_grabbed, for any model, and C29_range_moves_grabbed for movement ranges below 0.9. Proved: no velocity, no movement with several anchors, and for one anchor exactly where the point ends up (C29_lone_grab). C29_out_of_range_never_settles: from the end of the range on every Step answers true."
  },
  {
   "property": "C30",
   "status": "partial",
   "theorems": [
    "Verif.Props.C30_rest_stays_partial",
    "Verif.Props.C30_stale_spring",
    "Verif.Props.C30_rest_iff"
   ],
   "note": "False after a resize with an inserted anchor live (C30_stale_spring). Proved for all other histories; C30_rest_iff says exactly when it holds after any history."
  },
  {
   "property": "C31",
   "status": "partial",
   "theorems": [
    "Verif.Props.C31_stays_settled_partial",
    "Verif.Props.C31_lone_insert_partial",
    "Verif.Props.C31_twice",
    "Verif.Props.C31_next_decides",
    "Verif.Props.C31_snap_unsettles"
   ],
   "note": "False in general (C31_snap_unsettles). Proved with no anchor, several anchors, one grab, and one anchor inserted into a model without anchors. In every state two such answers in a row are final (C31_twice, C31_next_decides)."
  },
  {
   "property": "C32",
   "status": "proved",
   "theorems": [
    "Verif.Props.C32_zero_time"
   ],
   "note": ""
  },
  {
   "property": "C33",
   "status": "proved",
   "theorems": [
    "Verif.Props.C33_whole_ticks",
    "Verif.Props.C33_total_ticks",
    "Verif.Props.C33_total_answers",
    "Verif.Props.C33_frame_rate"
   ],
   "note": "C33_frame_rate shows why the total is not enough with one live anchor."
  },
  {
   "property": "C34",
   "status": "proved",
   "theorems": [
    "Verif.Props.C34_momentum",
    "Verif.Props.C34_equal_and_opposite",
    "Verif.Props.C34_forces_sum_to_zero"
   ],
   "note": ""
  },
  {
   "property": "C35",
   "status": "proved",
   "theorems": [
    "Verif.Props.C35_spring_law",
    "Verif.Props.C35_dead_zone",
    "Verif.Props.C35_towards_desired"
   ],
   "note": ""
  },
  {
   "property": "C36",
   "status": "proved",
   "theorems": [
    "Verif.Props.C36_displacement",
    "Verif.Props.C36_clipped",
    "Verif.Props.C36_more_iff",
    "Verif.Props.C36_moves_by_velocity",
    "Verif.Props.C36_friction_stops"
   ],
   "note": "Exact arithmetic."
  },
  {
   "property": "C37",
   "status": "proved",
   "theorems": [
    "Verif.Props.C37_after_step",
    "Verif.Props.C37_range_respected",
    "Verif.Props.C37_zero_range_nonfinite"
   ],
   "note": "Range 0 at the target divides zero by zero (C37_zero_range_nonfinite)."
  },
  {
   "property": "C38",
   "status": "proved",
   "theorems": [
    "Verif.Props.C38_translation_invariant"
   ],
   "note": "Outcomes, return values and the whole state, for every history; absolute positions shifted alike."
  },
  {
   "property": "C39",
   "status": "proved",
   "theorems": [
    "Verif.Props.C39_move_by",
    "Verif.Props.C39_deviations",
    "Verif.Props.C39_later_calls"
   ],
   "note": "Effect of the call, spring deviations, and every later history."
  },
  {
   "property": "C40",
   "status": "proved",
   "theorems": [
    "Verif.Props.C40_settled_position",
    "Verif.Props.C40_comes_to_rest_there"
   ],
   "note": "The settled position the model computes, and the position actually reached when stepping until Step answers false (one live anchor, or only grabs). With several inserted anchors the actual resting place is not the computed one."
  },
  {
   "property": "C41",
   "status": "partial",
   "theorems": [
    "Verif.Props.C41_stretched_anchors",
    "Verif.Props.C41_stretched_never_rests",
    "Verif.Props.C41_two_fingers",
    "Verif.Props.C41_weak_springs",
    "Verif.Props.C41_soft_springs",
    "Verif.Props.C41_default_settings",
    "Verif.Props.C41_rest_returns_partial",
    "Verif.Props.C41_no_frozen_state_partial",
    "Verif.Props.C41_nothing_held"
   ],
   "note": "False in general, five negations: C41_stretched_anchors / C41_two_fingers (any settings), C41_weak_springs, C41_soft_springs, C41_default_settings (an endless swing with the default settings and anchors), C41_nothing_held (an endless swing without anchors, friction 1/2). Proved: calls on a resting model return (and on a slow one, C122); no motionless stuck state without anchors for a spring constant of at least 3. Missing: that motion of a free mesh ends when friction is large enough (it need not at friction 1/2)."
  },
  {
   "property": "C42",
   "status": "proved",
   "theorems": [
    "Verif.Props.C42_same_size"
   ],
   "note": "For positive sizes; a zero size fails an assertion."
  },
  {
   "property": "C43",
   "status": "proved",
   "theorems": [
    "Verif.Props.C43_rest_kept",
    "Verif.Props.C43_intermediate_sizes"
   ],
   "note": "For every chain of positive sizes; the model keeps still afterwards."
  },
  {
   "property": "C44",
   "status": "partial",
   "theorems": [
    "Verif.Props.C44_lengths_partial",
    "Verif.Props.C44_lengths",
    "Verif.Props.C44_stale_length"
   ],
   "note": "False in general: C44_stale_length. C44_lengths says exactly which lengths result from any history and when they are right; C44_lengths_partial is the case without resizes while an anchor is inserted."
  },
  {
   "property": "C45",
   "status": "proved",
   "theorems": [
    "Verif.Props.C45_activation_count",
    "Verif.Props.C45_tracking_iff",
    "Verif.Props.C45_inactive_step",
    "Verif.Props.C45_active_snap",
    "Verif.Props.C45_active_tick"
   ],
   "note": ""
  },
  {
   "property": "C46",
   "status": "proved",
   "theorems": [
    "Verif.Props.C46_locks_count",
    "Verif.Props.C46_release_undoes_one",
    "Verif.Props.C46_no_underflow"
   ],
   "note": ""
  },
  {
   "property": "C47",
   "status": "proved",
   "theorems": [
    "Verif.Props.C47_first_anchor_pinned",
    "Verif.Props.C47_first_anchor_stable"
   ],
   "note": ""
  },
  {
   "property": "C48",
   "status": "proved",
   "theorems": [
    "Verif.Props.C48_springs_restored",
    "Verif.Props.C48_lengths_restored"
   ],
   "note": "Identities and ends for every history; lengths for histories without a resize while an inserted anchor is live (C44)."
  },
  {
   "property": "C49",
   "status": "partial",
   "theorems": [
    "Verif.Props.C49_step_iff",
    "Verif.Props.C49_undefined_iff",
    "Verif.Props.C49_no_dangling_partial",
    "Verif.Props.C49_reverse_order_partial",
    "Verif.Props.C49_use_after_free"
   ],
   "note": "False in general (C49_use_after_free). Proved when no anchor is released while another one sits on one of its springs, in particular for release in reverse order. C49_undefined_iff says exactly when, after every history."
  },
  {
   "property": "C50",
   "status": "proved",
   "theorems": [
    "Verif.Props.C50_identities_unique",
    "Verif.Props.C50_release_own_springs"
   ],
   "note": ""
  },
  {
   "property": "C51",
   "status": "proved",
   "theorems": [
    "Verif.Props.C51_insert_never_throws",
    "Verif.Props.C51_insert_defined",
    "Verif.Props.C51_insert_undefined"
   ],
   "note": ""
  },
  {
   "property": "C52",
   "status": "proved",
   "theorems": [
    "Verif.Props.C52_undisturbed"
   ],
   "note": "For representable coordinates and a positive movement range."
  },
  {
   "property": "C53",
   "status": "proved",
   "theorems": [
    "Verif.Props.C53_springs_stay",
    "Verif.Props.C53_splits_nearest"
   ],
   "note": ""
  },
  {
   "property": "C54",
   "status": "proved",
   "theorems": [
    "Verif.Props.C54_moves_only_its_point"
   ],
   "note": ""
  },
  {
   "property": "C55",
   "status": "proved",
   "theorems": [
    "Verif.Props.C55_surface",
    "Verif.Props.C55_linear_precision",
    "Verif.Props.C55_corners"
   ],
   "note": "The u and v roles follow the code and the project tests."
  },
  {
   "property": "C56",
   "status": "proved",
   "theorems": [
    "Verif.Props.C56_in_hull",
    "Verif.Props.C56_in_extremes"
   ],
   "note": ""
  },
  {
   "property": "C57",
   "status": "partial",
   "theorems": [
    "Verif.Props.C57_extremes",
    "Verif.Props.C57_within_half_pixel",
    "Verif.Props.C57_misses_point"
   ],
   "note": "Containment is false by up to half a pixel (C57_misses_point, for new models). The rounded bounding box is proved."
  },
  {
   "property": "C58",
   "status": "proved",
   "theorems": [
    "Verif.Props.C58_horizontal",
    "Verif.Props.C58_vertical"
   ],
   "note": "For any two states that agree in one coordinate."
  },
  {
   "property": "C59",
   "status": "proved",
   "theorems": [
    "Verif.Props.C59_native_history",
    "Verif.Props.C59_inert",
    "Verif.Props.C59_released_once"
   ],
   "note": "For every history: refinement of the native model, inertness after release, exactly one native release."
  },
  {
   "property": "C60",
   "status": "proved",
   "theorems": [
    "Verif.Props.C60_requests",
    "Verif.Props.C60_property_is_call",
    "Verif.Props.C60_follows"
   ],
   "note": "Stored values for every history; the mesh itself for histories that make no anchor."
  },
  {
   "property": "C61",
   "status": "partial",
   "theorems": [
    "Verif.Props.C61_get_and_drop",
    "Verif.Props.C61_outlives",
    "Verif.Props.C61_careful_partial"
   ],
   "note": "False: C61_get_and_drop (in every state), C61_outlives. Proved: programs that drop neither such a stepper nor its animation are fine."
  },
  {
   "property": "C62",
   "status": "partial",
   "theorems": [
    "Verif.Props.C62_bounce",
    "Verif.Props.C62_zoom_partial",
    "Verif.Props.C62_zoom_current_ignored",
    "Verif.Props.C62_zoom_degenerate",
    "Verif.Props.C62_zoom_native",
    "Verif.Props.C62_glide_partial",
    "Verif.Props.C62_glide_length",
    "Verif.Props.C62_lamp_partial",
    "Verif.Props.C62_lamp_ignored",
    "Verif.Props.C62_lamp_negative_resolution"
   ],
   "note": "Proved for bounce. False for zoom (C62_zoom_current_ignored, C62_zoom_degenerate), glide (C62_glide_length) and magic lamp (C62_lamp_ignored, C62_lamp_negative_resolution); what the constructors do instead is proved for all arguments."
  },
  {
   "property": "C63",
   "status": "proved",
   "theorems": [
    "Verif.Props.C63_view_exact"
   ],
   "note": ""
  },
  {
   "property": "C64",
   "status": "partial",
   "theorems": [
    "Verif.Props.C64_outlived",
    "Verif.Props.C64_drop_order",
    "Verif.Props.C64_released_first_partial"
   ],
   "note": "False: C64_outlived, C64_drop_order. Proved: anchors released before are harmless after the model is gone."
  },
  {
   "property": "C65",
   "status": "partial",
   "theorems": [
    "Verif.Props.C65_read",
    "Verif.Props.C65_in_range_partial",
    "Verif.Props.C65_unchecked",
    "Verif.Props.C65_construct_zero"
   ],
   "note": "False: C65_unchecked, C65_construct_zero. Proved: reading back what was written, and staying in range when made in range and changed through properties only."
  },
  {
   "property": "C66",
   "status": "partial",
   "theorems": [
    "Verif.Props.C66_bounce",
    "Verif.Props.C66_bounce_refused",
    "Verif.Props.C66_zoom",
    "Verif.Props.C66_zoom_refused",
    "Verif.Props.C66_glide",
    "Verif.Props.C66_glide_refused",
    "Verif.Props.C66_lamp_partial",
    "Verif.Props.C66_lamp_refused",
    "Verif.Props.C66_lamp_stepper_unreadable"
   ],
   "note": "Proved for bounce, zoom and glide and for every magic lamp property except stepper; C66_lamp_stepper_unreadable."
  },
  {
   "property": "C67",
   "status": "proved",
   "theorems": [
    "Verif.Props.C67_bounce",
    "Verif.Props.C67_zoom",
    "Verif.Props.C67_glide",
    "Verif.Props.C67_lamp",
    "Verif.Props.C67_null",
    "Verif.Props.C67_progress"
   ],
   "note": "Refinement for every history that hands over no NULL stepper; C67_null for the rest."
  },
  {
   "property": "C68",
   "status": "partial",
   "theorems": [
    "Verif.Props.C68_bounce_partial",
    "Verif.Props.C68_glide_partial",
    "Verif.Props.C68_lamp_partial",
    "Verif.Props.C68_unchecked",
    "Verif.Props.C68_glide_zero_width"
   ],
   "note": "False: C68_unchecked, C68_glide_zero_width. Proved for animations made with values in range and changed through properties only."
  },
  {
   "property": "C69",
   "status": "proved",
   "theorems": [
    "Verif.Props.C69_construct_only"
   ],
   "note": "For every history; stretch-factor is construct-only as a property but has a setter function, so it is not listed."
  },
  {
   "property": "C70",
   "status": "proved",
   "theorems": [
    "Verif.Props.C70_given",
    "Verif.Props.C70_constructed",
    "Verif.Props.C70_untouched"
   ],
   "note": "For every later program, as long as nobody asks the animation for its stepper."
  },
  {
   "property": "C71",
   "status": "partial",
   "theorems": [
    "Verif.Props.C71_linear_partial",
    "Verif.Props.C71_reverse",
    "Verif.Props.C71_reverse_linear_partial",
    "Verif.Props.C71_reverse_default",
    "Verif.Props.C71_zero_length"
   ],
   "note": "False for length 0: C71_zero_length. Proved for every other length and every program."
  },
  {
   "property": "C72",
   "status": "proved",
   "theorems": [
    "Verif.Props.C72_freed_iff",
    "Verif.Props.C72_no_leak",
    "Verif.Props.C72_held"
   ],
   "note": "For every program; wrappers are excluded because freeing one is undefined (C61)."
  },
  {
   "property": "C73",
   "status": "proved",
   "theorems": [
    "Verif.Props.C73_view"
   ],
   "note": ""
  },
  {
   "property": "C74",
   "status": "proved",
   "theorems": [
    "Verif.Props.C74_coordinatewise",
    "Verif.Props.C74_divide",
    "Verif.Props.C74_distance_equals",
    "Verif.Props.C74_types",
    "Verif.Props.C74_points",
    "Verif.Props.C74_views"
   ],
   "note": "For any type with the trait; the instances of the library are shown to be such types."
  },
  {
   "property": "C75",
   "status": "proved",
   "theorems": [
    "Verif.Props.C75_point",
    "Verif.Props.C75_compiles"
   ],
   "note": "The static_asserts in PointView are modelled as a condition under which a program compiles."
  },
  {
   "property": "C76",
   "status": "proved",
   "theorems": [
    "Verif.Props.C76_matrix_extremes",
    "Verif.Props.C76_lamp_corners",
    "Verif.Props.C76_resolution",
    "Verif.Props.C76_wobbly",
    "Verif.Props.C76_progress"
   ],
   "note": "Combines C14, C22, C25, C56, C57 with the GObject functions."
  },
  {
   "property": "C77",
   "status": "partial",
   "theorems": [
    "Verif.Props.C77_null_output_partial",
    "Verif.Props.C77_null_uv"
   ],
   "note": "False for uv: C77_null_uv. Proved for every other pointer argument."
  },
  {
   "property": "C78",
   "status": "proved",
   "theorems": [
    "Verif.Props.C78_glide_turns",
    "Verif.Props.C78_glide_axis"
   ],
   "note": ""
  },
  {
   "property": "C79",
   "status": "proved",
   "theorems": [
    "Verif.Props.C79_bounce_count"
   ],
   "note": ""
  },
  {
   "property": "C80",
   "status": "proved",
   "theorems": [
    "Verif.Props.C80_bilinear",
    "Verif.Props.C80_continuous"
   ],
   "note": ""
  },
  {
   "property": "C81",
   "status": "proved",
   "theorems": [
    "Verif.Props.C81_bounce",
    "Verif.Props.C81_zoom",
    "Verif.Props.C81_glide",
    "Verif.Props.C81_lamp"
   ],
   "note": "For a magic lamp with sensible parameters; see C21 for the others."
  },
  {
   "property": "C82",
   "status": "proved",
   "theorems": [
    "Verif.Props.C82_resize_stretches"
   ],
   "note": "The spring taken out by an inserted anchor is not stretched, see C44."
  },
  {
   "property": "C83",
   "status": "proved",
   "theorems": [
    "Verif.Props.C83_isolation",
    "Verif.Props.C83_others_untouched"
   ],
   "note": "While the model exists; a program that destroys it ends its story."
  },
  {
   "property": "C84",
   "status": "proved",
   "theorems": [
    "Verif.Props.C84_held",
    "Verif.Props.C84_none_left",
    "Verif.Props.C84_constraint_iff"
   ],
   "note": ""
  },
  {
   "property": "C85",
   "status": "proved",
   "theorems": [
    "Verif.Props.C85_move_defined_iff",
    "Verif.Props.C85_release_defined_iff",
    "Verif.Props.C85_moved_from",
    "Verif.Props.C85_outliving"
   ],
   "note": ""
  },
  {
   "property": "C86",
   "status": "proved",
   "theorems": [
    "Verif.Props.C86_write",
    "Verif.Props.C86_by_reference",
    "Verif.Props.C86_defaults",
    "Verif.Props.C86_next_step",
    "Verif.Props.C86_order"
   ],
   "note": "Emscripten registers the setters; what they write is modelled, the binding machinery is not."
  },
  {
   "property": "C87",
   "status": "proved",
   "theorems": [
    "Verif.Props.C87_forwards",
    "Verif.Props.C87_backwards"
   ],
   "note": ""
  },
  {
   "property": "C88",
   "status": "proved",
   "theorems": [
    "Verif.Props.C88_accurate",
    "Verif.Props.C88_reverse_accurate"
   ],
   "note": ""
  },
  {
   "property": "C89",
   "status": "proved",
   "theorems": [
    "Verif.Props.C89_one_frame_late",
    "Verif.Props.C89_not_early",
    "Verif.Props.C89_late"
   ],
   "note": "C89_late shows that the extra frame can be needed."
  },
  {
   "property": "C90",
   "status": "partial",
   "theorems": [
    "Verif.Props.C90_never_ends",
    "Verif.Props.C90_ends_partial"
   ],
   "note": "False: C90_never_ends, for frames below 2^-25 (1 - 2^-24) of the length. Proved for frames of at least 2^-25 (1 + 2^-23) of the length, so the border is known up to rounding."
  },
  {
   "property": "C91",
   "status": "proved",
   "theorems": [
    "Verif.Props.C91_verdict",
    "Verif.Props.C91_accepts_lines",
    "Verif.Props.C91_only_powers",
    "Verif.Props.C91_blind"
   ],
   "note": "C91_blind is the function with an arbitrary value at 3."
  },
  {
   "property": "C92",
   "status": "proved",
   "theorems": [
    "Verif.Props.C92_powers",
    "Verif.Props.C92_constant",
    "Verif.Props.C92_31_samples"
   ],
   "note": ""
  },
  {
   "property": "C93",
   "status": "proved",
   "theorems": [
    "Verif.Props.C93_defined_iff",
    "Verif.Props.C93_too_few",
    "Verif.Props.C93_two_samples"
   ],
   "note": ""
  },
  {
   "property": "C94",
   "status": "proved",
   "theorems": [
    "Verif.Props.C94_close",
    "Verif.Props.C94_self",
    "Verif.Props.C94_nonzero",
    "Verif.Props.C94_integers",
    "Verif.Props.C94_integers_undefined",
    "Verif.Props.C94_unsigned"
   ],
   "note": "C94_integers is the failure for int coordinates; C94_integers_undefined says when comparing them is undefined."
  },
  {
   "property": "C95",
   "status": "proved",
   "theorems": [
    "Verif.Props.C95_free_tick",
    "Verif.Props.C95_held_tick"
   ],
   "note": "C95_free_tick covers no anchor or several, C95_held_tick exactly one. EndsOwned rules out the use after free of C49."
  },
  {
   "property": "C96",
   "status": "proved",
   "theorems": [
    "Verif.Props.C96_rest_in_doubles",
    "Verif.Props.C96_far_away"
   ],
   "note": "C96_far_away shows that the range is needed. Anchor-free programs only."
  },
  {
   "property": "C97",
   "status": "proved",
   "theorems": [
    "Verif.Props.C97_settled_in_doubles"
   ],
   "note": "Anchor-free programs; overflow is not modelled."
  },
  {
   "property": "C98",
   "status": "partial",
   "theorems": [
    "Verif.Props.C98_bounce_partial",
    "Verif.Props.C98_bounce_negative",
    "Verif.Props.C98_zoom_partial",
    "Verif.Props.C98_zoom_far",
    "Verif.Props.C98_glide"
   ],
   "note": "Bounce for initial scales from 0 to 2^24 and Zoom for targets up to 2^52; C98_bounce_negative and C98_zoom_far show that the claim fails outside. Glide has no exception. No fused multiply-add."
  },
  {
   "property": "C99",
   "status": "proved",
   "theorems": [
    "Verif.Props.C99_bounce"
   ],
   "note": "Rounding to float and double is modelled operation by operation (Model/TransformFloat). The bound on the libm sine is a hypothesis."
  },
  {
   "property": "C100",
   "status": "proved",
   "theorems": [
    "Verif.Props.C100_zoom"
   ],
   "note": "Stated for the boxes that From () and To () report. Rounding to float and double is modelled operation by operation (Model/TransformFloat)."
  },
  {
   "property": "C101",
   "status": "proved",
   "theorems": [
    "Verif.Props.C101_ends_near_target",
    "Verif.Props.C101_same_end",
    "Verif.Props.C101_top_left",
    "Verif.Props.C101_uv_ends_near_target"
   ],
   "note": "All rounding errors of the lamp at progress 1 are bounded; the exact model is the instance without rounding (exact_lamp)."
  },
  {
   "property": "C102",
   "status": "partial",
   "theorems": [
    "Verif.Props.C102_finite_partial",
    "Verif.Props.C102_close_tops",
    "Verif.Props.C102_close_tops_exist"
   ],
   "note": "False as stated: two tops that differ but round to the same float give NaN in the top row of the finished lamp (C102_close_tops, C102_close_tops_exist). Proved for tops at least a hundredth of a pixel apart."
  },
  {
   "property": "C103",
   "status": "proved",
   "theorems": [
    "Verif.Props.C103_uv_in_bounds",
    "Verif.Props.C103_near_surface"
   ],
   "note": "C103_uv_in_bounds and C103_near_surface."
  },
  {
   "property": "C104",
   "status": "proved",
   "theorems": [
    "Verif.Props.C104_row_heights"
   ],
   "note": "Heights only; the horizontal error in the middle of the animation is not bounded beyond C102 (finite)."
  },
  {
   "property": "C105",
   "status": "proved",
   "theorems": [
    "Verif.Props.C105_default",
    "Verif.Props.C105_linear",
    "Verif.Props.C105_unobserved"
   ],
   "note": "The stepper is handed over as the stepper property; animation_glide_animation_new does not pass one (C62)."
  },
  {
   "property": "C106",
   "status": "proved",
   "theorems": [
    "Verif.Props.C106_near_surface",
    "Verif.Props.C106_corners",
    "Verif.Props.C106_in_box",
    "Verif.Props.C106_rest"
   ],
   "note": "Meshes of models with anchors are covered as stored; how rounding moves such a mesh is not."
  },
  {
   "property": "C107",
   "status": "proved",
   "theorems": [
    "Verif.Props.C107_glide_place"
   ],
   "note": "Exact arithmetic. The box position does not enter: the axis is measured from the origin (glide.cpp computes width times unit)."
  },
  {
   "property": "C108",
   "status": "proved",
   "theorems": [
    "Verif.Props.C108_glide"
   ],
   "note": "All roundings of the rotation matrices, their product and the point are bounded."
  },
  {
   "property": "C109",
   "status": "proved",
   "theorems": [
    "Verif.Props.C109_drag_in_doubles"
   ],
   "note": "Overflow is excluded by the ranges for the targets and the grabbed point only; doubles are unbounded above in the model. Fused multiply-add is not modelled."
  },
  {
   "property": "C110",
   "status": "proved",
   "theorems": [
    "Verif.Props.C110_speed_limit",
    "Verif.Props.C110_from_rest",
    "Verif.Props.C110_inserted",
    "Verif.Props.C110_bounded"
   ],
   "note": "Exact arithmetic. The explicit bound needs springs that fit the targets (C44): hence no earlier resize while an inserted anchor was live, and no coinciding mesh points when an anchor is inserted. C110_bounded needs neither, but its bound is not explicit and it does not allow later resizes."
  },
  {
   "property": "C111",
   "status": "proved",
   "theorems": [
    "Verif.Props.C111_bounded",
    "Verif.Props.C111_eventually",
    "Verif.Props.C111_too_stiff"
   ],
   "note": "Exact arithmetic. The factor is shown to exist, its size is not computed. Exactly one anchor is C110. A mesh nothing holds keeps its shape and slows down; that it comes to a stop is false in general (C41)."
  },
  {
   "property": "C112",
   "status": "proved",
   "theorems": [
    "Verif.Props.C112_accepted",
    "Verif.Props.C112_accepts",
    "Verif.Props.C112_itself",
    "Verif.Props.C112_integers",
    "Verif.Props.C112_integers_never",
    "Verif.Props.C112_unsigned",
    "Verif.Props.C112_unsigned_above",
    "Verif.Props.C112_within"
   ],
   "note": "C112_integers_never and C112_unsigned_above are the failures for integers."
  },
  {
   "property": "C113",
   "status": "proved",
   "theorems": [
    "Verif.Props.C113_speed_in_doubles"
   ],
   "note": "The double counterpart of C110 for histories as in C109; overflow is excluded by letting the arithmetic do anything beyond 2^500."
  },
  {
   "property": "C114",
   "status": "partial",
   "theorems": [
    "Verif.Props.C114_keeps_the_place",
    "Verif.Props.C114_returns_iff_rests",
    "Verif.Props.C114_first_lengths",
    "Verif.Props.C114_first_lengths_partial",
    "Verif.Props.C114_coinciding_points"
   ],
   "note": "The place and the returning are proved without exception. The claim about the lengths is false when two mesh points are at exactly the same place (C114_coinciding_points); C114_first_lengths says which place is taken then."
  },
  {
   "property": "C115",
   "status": "proved",
   "theorems": [
    "Verif.Props.C115_again_in_doubles",
    "Verif.Props.C115_no_overflow"
   ],
   "note": "Induction over the program. Letting go of a model in motion is not covered: at low friction it can swing for ever (C41)."
  },
  {
   "property": "C116",
   "status": "proved",
   "theorems": [
    "Verif.Props.C116_once_is_not_enough",
    "Verif.Props.C116_twice",
    "Verif.Props.C116_untracked",
    "Verif.Props.C116_tracked"
   ],
   "note": "C116_once_is_not_enough is the witness that one answer is not enough with one anchor. In exact arithmetic a lone grab is always final (C31); the witness needs coordinates whose doubles are further apart than a pixel."
  },
  {
   "property": "C117",
   "status": "proved",
   "theorems": [
    "Verif.Props.C117_linear",
    "Verif.Props.C117_reverse",
    "Verif.Props.C117_bounce",
    "Verif.Props.C117_glide",
    "Verif.Props.C117_zoom",
    "Verif.Props.C117_lamp",
    "Verif.Props.C117_needs_timed"
   ],
   "note": "C117_linear and C117_reverse say which steppers of the library qualify; C117_needs_timed is the witness that the condition on the stepper is needed."
  },
  {
   "property": "C118",
   "status": "proved",
   "theorems": [
    "Verif.Props.C118_follows",
    "Verif.Props.C118_borders",
    "Verif.Props.C118_affine",
    "Verif.Props.C118_rate_in_rows",
    "Verif.Props.C118_rate_in_columns",
    "Verif.Props.C118_not_mirrored",
    "Verif.Props.C118_unfolded",
    "Verif.Props.C118_drag",
    "Verif.Props.C118_can_fold"
   ],
   "note": "In exact arithmetic; C106 bounds what doubles do to it. C118_can_fold is the witness that a dragged surface can be folded before the next Step."
  },
  {
   "property": "C119",
   "status": "proved",
   "theorems": [
    "Verif.Props.C119_rows_and_columns",
    "Verif.Props.C119_reading",
    "Verif.Props.C119_ties"
   ],
   "note": "In exact arithmetic. C119_ties is the witness that ties have to be excluded. Left and right are not claimed to be alike: the settled position is read from the top left point only."
  },
  {
   "property": "C120",
   "status": "proved",
   "theorems": [
    "Verif.Props.C120_level_lines",
    "Verif.Props.C120_in_order",
    "Verif.Props.C120_no_fold",
    "Verif.Props.C120_never_back",
    "Verif.Props.C120_upside_down",
    "Verif.Props.C120_taller_target"
   ],
   "note": "In exact arithmetic. C120_upside_down and C120_taller_target are what happens without the condition on the boxes."
  },
  {
   "property": "C121",
   "status": "proved",
   "theorems": [
    "Verif.Props.C121_heights",
    "Verif.Props.C121_one_way"
   ],
   "note": "That exp never decreases is an assumption about libm, used for the horizontal positions only."
  },
  {
   "property": "C122",
   "status": "proved",
   "theorems": [
    "Verif.Props.C122_calls_return",
    "Verif.Props.C122_moves_by",
    "Verif.Props.C122_comes_to_rest",
    "Verif.Props.C122_within_eight_ticks",
    "Verif.Props.C122_held"
   ],
   "note": "In exact arithmetic. The positive side of C41: a model that is not slow need not come to rest at all. C122_within_eight_ticks: n = 8 always suffices."
  },
  {
   "property": "C123",
   "status": "proved",
   "theorems": [
    "Verif.Props.C123_zoom",
    "Verif.Props.C123_zoom_given",
    "Verif.Props.C123_bounce",
    "Verif.Props.C123_glide",
    "Verif.Props.C123_lamp_rows",
    "Verif.Props.C123_zoom_frame_rate",
    "Verif.Props.C123_bounce_frame_rate",
    "Verif.Props.C123_glide_frame_rate"
   ],
   "note": "The whole computation, from the frames to the corners. For the magic lamp only the heights of the rows; the error of its horizontal places is not bounded in the middle of the animation."
  },
  {
   "property": "C124",
   "status": "proved",
   "theorems": [
    "Verif.Props.C124_no_hang",
    "Verif.Props.C124_calls_return",
    "Verif.Props.C124_moves_by",
    "Verif.Props.C124_comes_to_rest",
    "Verif.Props.C124_held"
   ],
   "note": "C122 with rounding. Overflow is not modelled; it cannot occur in the Steps of a slow model, whose coordinates are bounded, but it could in MoveModelTo or ResizeModel with huge arguments."
  },
  {
   "property": "C125",
   "status": "proved",
   "theorems": [
    "Verif.Props.C125_mirror",
    "Verif.Props.C125_reading",
    "Verif.Props.C125_rest_is_even",
    "Verif.Props.C125_corner_decides",
    "Verif.Props.C125_insertion",
    "Verif.Props.C125_ties"
   ],
   "note": "In exact arithmetic. Left out: InsertAnchor, for which the claim is false (C125_insertion), and Extremes, whose rounding to whole pixels is not the same on both sides of the mirror. C125_corner_decides and C125_ties are the negations without the two conditions."
  },
  {
   "property": "C126",
   "status": "proved",
   "theorems": [
    "Verif.Props.C126_tracking",
    "Verif.Props.C126_locks",
    "Verif.Props.C126_release",
    "Verif.Props.C126_first_anchor",
    "Verif.Props.C126_springs_restored",
    "Verif.Props.C126_identities",
    "Verif.Props.C126_springs_stay",
    "Verif.Props.C126_undefined_iff",
    "Verif.Props.C126_use_after_free"
   ],
   "note": "The rounding function is arbitrary except in C126_use_after_free. Histories whose calls return are those of the rounded model, where an exhausted search for a mesh point or spring is undefined behaviour. C45 to C50 say the same in exact arithmetic."
  },
  {
   "property": "C127",
   "status": "proved",
   "theorems": [
    "Verif.Props.C127_held",
    "Verif.Props.C127_velocities",
    "Verif.Props.C127_zero_time",
    "Verif.Props.C127_whole_ticks",
    "Verif.Props.C127_total_ticks",
    "Verif.Props.C127_directions",
    "Verif.Props.C127_move_anchor",
    "Verif.Props.C127_mesh_stays",
    "Verif.Props.C127_model_moves"
   ],
   "note": "The rounding function is arbitrary, so fused operations that round once are not covered, but any precision is. C29, C32, C33, C36, C54 and C58 say the same in exact arithmetic."
  },
  {
   "property": "C128",
   "status": "proved",
   "theorems": [
    "Verif.Props.C128_isolation",
    "Verif.Props.C128_others_untouched",
    "Verif.Props.C128_held",
    "Verif.Props.C128_none_left",
    "Verif.Props.C128_constraint_iff",
    "Verif.Props.C128_move_defined_iff",
    "Verif.Props.C128_release_defined_iff",
    "Verif.Props.C128_moved_from",
    "Verif.Props.C128_outliving",
    "Verif.Props.C128_write",
    "Verif.Props.C128_next_step",
    "Verif.Props.C128_order"
   ],
   "note": "The rounding function is arbitrary. C83 to C86 say the same in exact arithmetic."
  },
  {
   "property": "C129",
   "status": "proved",
   "theorems": [
    "Verif.Props.C129_grab",
    "Verif.Props.C129_grab_clear",
    "Verif.Props.C129_grab_defined",
    "Verif.Props.C129_insert",
    "Verif.Props.C129_insert_never_throws",
    "Verif.Props.C129_insert_defined"
   ],
   "note": "C28, C51 and C53 say the same in exact arithmetic."
  },
  {
   "property": "C130",
   "status": "proved",
   "theorems": [
    "Verif.Props.C130_free_tick",
    "Verif.Props.C130_held_tick",
    "Verif.Props.C130_momentum"
   ],
   "note": "C34, C35, C37 and C95 say the same in exact arithmetic. Tie rules that treat a number and its opposite differently are left out because then one end of a spring can be pulled and the other not."
  },
  {
   "property": "C131",
   "status": "proved",
   "theorems": [
    "Verif.Props.C131_inserted_in_doubles",
    "Verif.Props.C131_no_overflow"
   ],
   "note": "C52 and C109 say related things in exact arithmetic. Resizing while the anchor is there leaves the split spring at its old length after the release (C44), so the model may move again then; that is why the last part excludes it."
  },
  {
   "property": "C132",
   "status": "proved",
   "theorems": [
    "Verif.Props.C132_boxed_values_are_copies",
    "Verif.Props.C132_read_back"
   ],
   "note": "Spec/Ledger.lean is the account that a program keeps. Blocks of memory have numbers that are never used again."
  },
  {
   "property": "C133",
   "status": "partial",
   "theorems": [
    "Verif.Props.C133_in_use",
    "Verif.Props.C133_returned_partial",
    "Verif.Props.C133_left_over",
    "Verif.Props.C133_not_returned"
   ],
   "note": "C133_not_returned is the counterexample and C133_in_use says exactly what is left."
  },
  {
   "property": "C134",
   "status": "proved",
   "theorems": [
    "Verif.Props.C134_native_history",
    "Verif.Props.C134_inert",
    "Verif.Props.C134_released_once",
    "Verif.Props.C134_requests",
    "Verif.Props.C134_settings",
    "Verif.Props.C134_outlived"
   ],
   "note": "The rounding function is arbitrary, so exact arithmetic and every precision are covered. The requests are told from the calls alone (Spec/GWobbly.lean, Spec/GWobblyRounded.lean)."
  },
  {
   "property": "C135",
   "status": "proved",
   "theorems": [
    "Verif.Props.C135_glib_in_doubles",
    "Verif.Props.C135_glib_no_overflow"
   ],
   "note": "GHandled, GDependable and GAttachable in Spec/GVisit.lean say what the program does and what it may count on."
  },
  {
   "property": "C136",
   "status": "proved",
   "theorems": [
    "Verif.Props.C136_bounded"
   ],
   "note": "Exact arithmetic. One anchor is the case of C110; without anchors nothing is said about where the mesh goes."
  },
  {
   "property": "C137",
   "status": "proved",
   "theorems": [
    "Verif.Props.C137_dragged_together"
   ],
   "note": "Exact arithmetic. Spec/WobblyTug.lean says how far a list of calls drags an anchor. One anchor is the case of C110, where there is no limit on how far it is dragged."
  },
  {
   "property": "C138",
   "status": "proved",
   "theorems": [
    "Verif.Props.C138_bounded",
    "Verif.Props.C138_no_overflow"
   ],
   "note": "Double precision, any way of rounding to nearest; beyond 2^500 the arithmetic may do anything. C138_bounded: every call returns and everything stays within the bounds. C138_no_overflow: the calls do not depend on what the arithmetic does beyond 2^500. A single anchor is the case of C139; no anchor is that of C145."
  },
  {
   "property": "C139",
   "status": "proved",
   "theorems": [
    "Verif.Props.C139_bounded",
    "Verif.Props.C139_no_overflow"
   ],
   "note": "Double precision, any way of rounding to nearest; beyond 2^500 the arithmetic may do anything. C139_bounded: every call returns and everything stays within the bounds. C139_no_overflow: the calls do not depend on what the arithmetic does beyond 2^500."
  },
  {
   "property": "C140",
   "status": "proved",
   "theorems": [
    "Verif.Props.C140_comes_down"
   ],
   "note": "Double precision, any way of rounding to nearest; beyond 2^500 the arithmetic may do anything. The factors are far from sharp. C138 is the bound that holds from the start."
  },
  {
   "property": "C141",
   "status": "proved",
   "theorems": [
    "Verif.Props.C141_comes_down"
   ],
   "note": "Double precision, any way of rounding to nearest; beyond 2^500 the arithmetic may do anything. C139 is the bound that holds from the start."
  },
  {
   "property": "C142",
   "status": "partial",
   "theorems": [
    "Verif.Props.C142_symmetric_partial",
    "Verif.Props.C142_zero",
    "Verif.Props.C142_triangle",
    "Verif.Props.C142_transitive",
    "Verif.Props.C142_mixed",
    "Verif.Props.C142_order_matters"
   ],
   "note": "False for geometries of different dimensions: C142_order_matters. Proved for the same number of dimensions."
  },
  {
   "property": "C143",
   "status": "proved",
   "theorems": [
    "Verif.Props.C143_same_mesh",
    "Verif.Props.C143_itself"
   ],
   "note": "The operation is an arbitrary function of two numbers. pointwise_div by zero is not a number (C74)."
  },
  {
   "property": "C144",
   "status": "proved",
   "theorems": [
    "Verif.Props.C144_coordinates",
    "Verif.Props.C144_unregistered",
    "Verif.Props.C144_void",
    "Verif.Props.C144_point",
    "Verif.Props.C144_vector4",
    "Verif.Props.C144_zeros"
   ],
   "note": "C144_coordinates is the general law. C144_unregistered shows that Eq accepts everything for types without the trait, C144_void when the ordinary comparison is made. C144_point and C144_vector4 are the two mixed cases; C144_zeros says in numbers what matching zero means for the second."
  },
  {
   "property": "C145",
   "status": "proved",
   "theorems": [
    "Verif.Props.C145_bounded",
    "Verif.Props.C145_no_overflow"
   ],
   "note": "Double precision, any way of rounding to nearest; beyond 2^500 the arithmetic may do anything. The limit of 2^33 ticks is part of the claim: nothing holds the mesh, so how far rounding pushes it depends on the time. C111 is the exact case, without a limit and without positions. C138 and C139 are the cases with anchors."
  },
  {
   "property": "C146",
   "status": "proved",
   "theorems": [
    "Verif.Props.C146_glib_bounded"
   ],
   "note": "Double precision, any way of rounding to nearest; beyond 2^500 the arithmetic may do anything. The GObject counterpart of C138, C139 and C145 in one theorem. The bounds are those of C145, which are the widest of the three."
  },
  {
   "property": "C147",
   "status": "proved",
   "theorems": [
    "Verif.Props.C147_glib_comes_down"
   ],
   "note": "Double precision, any way of rounding to nearest; beyond 2^500 the arithmetic may do anything. The GObject counterpart of C140 and C141 in one theorem. C146 is the bound that holds from the start."
  },
  {
   "property": "C148",
   "status": "proved",
   "theorems": [
    "Verif.Props.C148_drawn",
    "Verif.Props.C148_drawn_held"
   ],
   "note": "Double precision, any way of rounding to nearest; beyond 2^500 the arithmetic of doubles may do anything. From C135 and the error bound of C106, with C57 for the extremes."
  },
  {
   "property": "C149",
   "status": "proved",
   "theorems": [
    "Verif.Props.C149_picture"
   ],
   "note": "Double precision, any way of rounding to nearest; beyond 2^500 the arithmetic of doubles may do anything. From C113 and the error bound of C106."
  },
  {
   "property": "C150",
   "status": "proved",
   "theorems": [
    "Verif.Props.C150_zoom",
    "Verif.Props.C150_bounce",
    "Verif.Props.C150_glide",
    "Verif.Props.C150_glide_new"
   ],
   "note": "Float and double arithmetic, any way of rounding to nearest. The GObject calls are carried to native calls and C123 is applied to those."
  },
  {
   "property": "C151",
   "status": "proved",
   "theorems": [
    "Verif.Props.C151_rows",
    "Verif.Props.C151_rows_new"
   ],
   "note": "Float and double arithmetic, any way of rounding to nearest. The GObject calls are carried to native calls and C123 is applied to those. The limits of the properties are taken as exact decimals."
  },
  {
   "property": "C152",
   "status": "proved",
   "theorems": [
    "Verif.Props.C152_zoom",
    "Verif.Props.C152_bounce",
    "Verif.Props.C152_glide",
    "Verif.Props.C152_glide_new",
    "Verif.Props.C152_lamp",
    "Verif.Props.C152_lamp_new"
   ],
   "note": "Float and double arithmetic, any usual way of rounding to nearest. C89, C98 and C101 carried to the GObject layer and put together. The extra frame can be needed (C89_late)."
  },
  {
   "property": "C153",
   "status": "proved",
   "theorems": [
    "Verif.Props.C153_zoom",
    "Verif.Props.C153_bounce",
    "Verif.Props.C153_glide",
    "Verif.Props.C153_lamp",
    "Verif.Props.C153_glide_new"
   ],
   "note": "Float arithmetic, any way of rounding to nearest. From C88 and C89. The answer within the margins is left open; C89_late shows that the last frame can come late there."
  }
 ]
}