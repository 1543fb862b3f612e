import Verif.Props.AlmostEq
import Verif.Props.BezierDouble
import Verif.Props.FrameRate
import Verif.Props.GAnswer
import Verif.Props.GDecay
import Verif.Props.GDrawn
import Verif.Props.GFinished
import Verif.Props.GLampFinished
import Verif.Props.GLampOnTime
import Verif.Props.GMemory
import Verif.Props.GObject
import Verif.Props.GOnTime
import Verif.Props.GRead
import Verif.Props.GStepper
import Verif.Props.GTug
import Verif.Props.GVisit
import Verif.Props.GWobbly
import Verif.Props.GWobblyRounded
import Verif.Props.Geometry
import Verif.Props.GlideAccuracy
import Verif.Props.Lamp
import Verif.Props.LampEnds
import Verif.Props.LampExact
import Verif.Props.LampFloat
import Verif.Props.LampFloatUV
import Verif.Props.LampGrid
import Verif.Props.LampOneWay
import Verif.Props.LampOrder
import Verif.Props.LampRows
import Verif.Props.LampShape
import Verif.Props.MatcherEq
import Verif.Props.Matchers
import Verif.Props.NoJumps
import Verif.Props.OnTime
import Verif.Props.Process
import Verif.Props.ProcessRounded
import Verif.Props.Progress
import Verif.Props.Rounding
import Verif.Props.StepperCopy
import Verif.Props.Traits
import Verif.Props.TransformAccuracy
import Verif.Props.TransformFloat
import Verif.Props.TransformShapes
import Verif.Props.Transforms
import Verif.Props.WobblyAdrift
import Verif.Props.WobblyAnchors
import Verif.Props.WobblyAttach
import Verif.Props.WobblyBits
import Verif.Props.WobblyBook
import Verif.Props.WobblyBounded
import Verif.Props.WobblyDecay
import Verif.Props.WobblyDouble
import Verif.Props.WobblyDrag
import Verif.Props.WobblyDrawn
import Verif.Props.WobblyFar
import Verif.Props.WobblyFlip
import Verif.Props.WobblyHang
import Verif.Props.WobblyHaul
import Verif.Props.WobblyHaulDecay
import Verif.Props.WobblyHeld
import Verif.Props.WobblyInsert
import Verif.Props.WobblyKeep
import Verif.Props.WobblyLaw
import Verif.Props.WobblyMesh
import Verif.Props.WobblyMirror
import Verif.Props.WobblyMotion
import Verif.Props.WobblyNearest
import Verif.Props.WobblyPaced
import Verif.Props.WobblyResize
import Verif.Props.WobblySlow
import Verif.Props.WobblySlowDouble
import Verif.Props.WobblyStable
import Verif.Props.WobblySteps
import Verif.Props.WobblySurface
import Verif.Props.WobblyTick
import Verif.Props.WobblyTied
import Verif.Props.WobblyTug
import Verif.Props.WobblyTugDouble
import Verif.Props.WobblyTwice
import Verif.Props.WobblyUnheld
import Verif.Props.WobblyVisit

/-!
# Audit

Prints the axioms behind every theorem listed in MANIFEST.json.
Only `propext`, `Classical.choice` and `Quot.sound` may appear.
-/

#print axioms Verif.Props.C01_progress_in_unit
#print axioms Verif.Props.C01_progress_follows_stepper
#print axioms Verif.Props.C02_step_result
#print axioms Verif.Props.C03_linear_total
#print axioms Verif.Props.C03_linear_batching
#print axioms Verif.Props.C03_linear_monotone
#print axioms Verif.Props.C04_linear_progress
#print axioms Verif.Props.C04_linear_completion
#print axioms Verif.Props.C04_linear_stays_finished
#print axioms Verif.Props.C04_zero_length
#print axioms Verif.Props.C05_reverse_outputs
#print axioms Verif.Props.C05_reverse_reverse
#print axioms Verif.Props.C05_reverse_progress
#print axioms Verif.Props.C05_nan
#print axioms Verif.Props.C06_copies_independent
#print axioms Verif.Props.C06_copy_keeps_progress
#print axioms Verif.Props.C06_given_keeps_progress
#print axioms Verif.Props.C07_constructor_not_clamped
#print axioms Verif.Props.C07_initial_progress_partial
#print axioms Verif.Props.C07_linear_iff_partial
#print axioms Verif.Props.C07_zero_length_is_nan
#print axioms Verif.Props.C08_bounce_end
#print axioms Verif.Props.C08_bounce_start
#print axioms Verif.Props.C09_bounce_envelope
#print axioms Verif.Props.C09_single_bounce
#print axioms Verif.Props.C10_bounce_can_mirror
#print axioms Verif.Props.C10_each_count_can_mirror
#print axioms Verif.Props.C10_bounce_positive_partial
#print axioms Verif.Props.C10_every_count_iff
#print axioms Verif.Props.C11_bounce_middle_fixed
#print axioms Verif.Props.C12_zoom_interpolates
#print axioms Verif.Props.C12_zoom_interpolates_current
#print axioms Verif.Props.C12_zoom_ends
#print axioms Verif.Props.C13_zoom_finite
#print axioms Verif.Props.C13_zoom_boxes
#print axioms Verif.Props.C14_bounce_extremes
#print axioms Verif.Props.C14_zoom_extremes
#print axioms Verif.Props.C14_glide_extremes
#print axioms Verif.Props.C14_finite
#print axioms Verif.Props.C15_glide_end_depth
#print axioms Verif.Props.C15_glide_end_partial
#print axioms Verif.Props.C16_glide_rigid
#print axioms Verif.Props.C17_lamp
#print axioms Verif.Props.C17_setters_defer
#print axioms Verif.Props.C17_bounce
#print axioms Verif.Props.C17_glide
#print axioms Verif.Props.C17_zoom
#print axioms Verif.Props.C18_lamp_ends_at_target
#print axioms Verif.Props.C18_uv_ends_at_target
#print axioms Verif.Props.C19_lamp_starts_at_source_partial
#print axioms Verif.Props.C19_lamp_start_not_source
#print axioms Verif.Props.C19_uv_starts_at_source_partial
#print axioms Verif.Props.C19_lamp_start_iff
#print axioms Verif.Props.C20_lamp_between
#print axioms Verif.Props.C21_lamp_finite_partial
#print axioms Verif.Props.C21_stretch_one_nan
#print axioms Verif.Props.C21_one_wide_nan
#print axioms Verif.Props.C21_equal_tops_nan
#print axioms Verif.Props.C21_lamp_finite_iff
#print axioms Verif.Props.C22_uv_after_step
#print axioms Verif.Props.C22_uv_in_bounds
#print axioms Verif.Props.C22_uv_lattice
#print axioms Verif.Props.C22_uv_hull
#print axioms Verif.Props.C23_uv_out_of_bounds
#print axioms Verif.Props.C23_uv_safe_iff
#print axioms Verif.Props.C23_uv_memory_safe_partial
#print axioms Verif.Props.C24_steps_iff
#print axioms Verif.Props.C24_extremes_iff
#print axioms Verif.Props.C24_larger_resolution_ub
#print axioms Verif.Props.C24_resolution_safe_partial
#print axioms Verif.Props.C25_extremes_corners
#print axioms Verif.Props.C26_vec4_assign_differs
#print axioms Verif.Props.C26_vec4_copy_partial
#print axioms Verif.Props.C26_point_assign
#print axioms Verif.Props.C26_point_equals
#print axioms Verif.Props.C27_contains_closed
#print axioms Verif.Props.C27_contains_translate
#print axioms Verif.Props.C27_contains_convex
#print axioms Verif.Props.C27_axis_point
#print axioms Verif.Props.C28_grab_nearest
#print axioms Verif.Props.C28_grab_defined
#print axioms Verif.Props.C29_lone_grab
#print axioms Verif.Props.C29_out_of_range_never_settles
#print axioms Verif.Props.C29_range_moves_grabbed
#print axioms Verif.Props.C29_grabbed_point_partial
#print axioms Verif.Props.C29_snap_moves_grabbed
#print axioms Verif.Props.C30_rest_stays_partial
#print axioms Verif.Props.C30_stale_spring
#print axioms Verif.Props.C30_rest_iff
#print axioms Verif.Props.C31_stays_settled_partial
#print axioms Verif.Props.C31_lone_insert_partial
#print axioms Verif.Props.C31_twice
#print axioms Verif.Props.C31_next_decides
#print axioms Verif.Props.C31_snap_unsettles
#print axioms Verif.Props.C32_zero_time
#print axioms Verif.Props.C33_whole_ticks
#print axioms Verif.Props.C33_total_ticks
#print axioms Verif.Props.C33_total_answers
#print axioms Verif.Props.C33_frame_rate
#print axioms Verif.Props.C34_momentum
#print axioms Verif.Props.C34_equal_and_opposite
#print axioms Verif.Props.C34_forces_sum_to_zero
#print axioms Verif.Props.C35_spring_law
#print axioms Verif.Props.C35_dead_zone
#print axioms Verif.Props.C35_towards_desired
#print axioms Verif.Props.C36_displacement
#print axioms Verif.Props.C36_clipped
#print axioms Verif.Props.C36_more_iff
#print axioms Verif.Props.C36_moves_by_velocity
#print axioms Verif.Props.C36_friction_stops
#print axioms Verif.Props.C37_after_step
#print axioms Verif.Props.C37_range_respected
#print axioms Verif.Props.C37_zero_range_nonfinite
#print axioms Verif.Props.C38_translation_invariant
#print axioms Verif.Props.C39_move_by
#print axioms Verif.Props.C39_deviations
#print axioms Verif.Props.C39_later_calls
#print axioms Verif.Props.C40_settled_position
#print axioms Verif.Props.C40_comes_to_rest_there
#print axioms Verif.Props.C41_stretched_anchors
#print axioms Verif.Props.C41_stretched_never_rests
#print axioms Verif.Props.C41_two_fingers
#print axioms Verif.Props.C41_weak_springs
#print axioms Verif.Props.C41_soft_springs
#print axioms Verif.Props.C41_default_settings
#print axioms Verif.Props.C41_rest_returns_partial
#print axioms Verif.Props.C41_no_frozen_state_partial
#print axioms Verif.Props.C41_nothing_held
#print axioms Verif.Props.C42_same_size
#print axioms Verif.Props.C43_rest_kept
#print axioms Verif.Props.C43_intermediate_sizes
#print axioms Verif.Props.C44_lengths_partial
#print axioms Verif.Props.C44_lengths
#print axioms Verif.Props.C44_stale_length
#print axioms Verif.Props.C45_activation_count
#print axioms Verif.Props.C45_tracking_iff
#print axioms Verif.Props.C45_inactive_step
#print axioms Verif.Props.C45_active_snap
#print axioms Verif.Props.C45_active_tick
#print axioms Verif.Props.C46_locks_count
#print axioms Verif.Props.C46_release_undoes_one
#print axioms Verif.Props.C46_no_underflow
#print axioms Verif.Props.C47_first_anchor_pinned
#print axioms Verif.Props.C47_first_anchor_stable
#print axioms Verif.Props.C48_springs_restored
#print axioms Verif.Props.C48_lengths_restored
#print axioms Verif.Props.C49_step_iff
#print axioms Verif.Props.C49_undefined_iff
#print axioms Verif.Props.C49_no_dangling_partial
#print axioms Verif.Props.C49_reverse_order_partial
#print axioms Verif.Props.C49_use_after_free
#print axioms Verif.Props.C50_identities_unique
#print axioms Verif.Props.C50_release_own_springs
#print axioms Verif.Props.C51_insert_never_throws
#print axioms Verif.Props.C51_insert_defined
#print axioms Verif.Props.C51_insert_undefined
#print axioms Verif.Props.C52_undisturbed
#print axioms Verif.Props.C53_springs_stay
#print axioms Verif.Props.C53_splits_nearest
#print axioms Verif.Props.C54_moves_only_its_point
#print axioms Verif.Props.C55_surface
#print axioms Verif.Props.C55_linear_precision
#print axioms Verif.Props.C55_corners
#print axioms Verif.Props.C56_in_hull
#print axioms Verif.Props.C56_in_extremes
#print axioms Verif.Props.C57_extremes
#print axioms Verif.Props.C57_within_half_pixel
#print axioms Verif.Props.C57_misses_point
#print axioms Verif.Props.C58_horizontal
#print axioms Verif.Props.C58_vertical
#print axioms Verif.Props.C59_native_history
#print axioms Verif.Props.C59_inert
#print axioms Verif.Props.C59_released_once
#print axioms Verif.Props.C60_requests
#print axioms Verif.Props.C60_property_is_call
#print axioms Verif.Props.C60_follows
#print axioms Verif.Props.C61_get_and_drop
#print axioms Verif.Props.C61_outlives
#print axioms Verif.Props.C61_careful_partial
#print axioms Verif.Props.C62_bounce
#print axioms Verif.Props.C62_zoom_partial
#print axioms Verif.Props.C62_zoom_current_ignored
#print axioms Verif.Props.C62_zoom_degenerate
#print axioms Verif.Props.C62_zoom_native
#print axioms Verif.Props.C62_glide_partial
#print axioms Verif.Props.C62_glide_length
#print axioms Verif.Props.C62_lamp_partial
#print axioms Verif.Props.C62_lamp_ignored
#print axioms Verif.Props.C62_lamp_negative_resolution
#print axioms Verif.Props.C63_view_exact
#print axioms Verif.Props.C64_outlived
#print axioms Verif.Props.C64_drop_order
#print axioms Verif.Props.C64_released_first_partial
#print axioms Verif.Props.C65_read
#print axioms Verif.Props.C65_in_range_partial
#print axioms Verif.Props.C65_unchecked
#print axioms Verif.Props.C65_construct_zero
#print axioms Verif.Props.C66_bounce
#print axioms Verif.Props.C66_bounce_refused
#print axioms Verif.Props.C66_zoom
#print axioms Verif.Props.C66_zoom_refused
#print axioms Verif.Props.C66_glide
#print axioms Verif.Props.C66_glide_refused
#print axioms Verif.Props.C66_lamp_partial
#print axioms Verif.Props.C66_lamp_refused
#print axioms Verif.Props.C66_lamp_stepper_unreadable
#print axioms Verif.Props.C67_bounce
#print axioms Verif.Props.C67_zoom
#print axioms Verif.Props.C67_glide
#print axioms Verif.Props.C67_lamp
#print axioms Verif.Props.C67_null
#print axioms Verif.Props.C67_progress
#print axioms Verif.Props.C68_bounce_partial
#print axioms Verif.Props.C68_glide_partial
#print axioms Verif.Props.C68_lamp_partial
#print axioms Verif.Props.C68_unchecked
#print axioms Verif.Props.C68_glide_zero_width
#print axioms Verif.Props.C69_construct_only
#print axioms Verif.Props.C70_given
#print axioms Verif.Props.C70_constructed
#print axioms Verif.Props.C70_untouched
#print axioms Verif.Props.C71_linear_partial
#print axioms Verif.Props.C71_reverse
#print axioms Verif.Props.C71_reverse_linear_partial
#print axioms Verif.Props.C71_reverse_default
#print axioms Verif.Props.C71_zero_length
#print axioms Verif.Props.C72_freed_iff
#print axioms Verif.Props.C72_no_leak
#print axioms Verif.Props.C72_held
#print axioms Verif.Props.C73_view
#print axioms Verif.Props.C74_coordinatewise
#print axioms Verif.Props.C74_divide
#print axioms Verif.Props.C74_distance_equals
#print axioms Verif.Props.C74_types
#print axioms Verif.Props.C74_points
#print axioms Verif.Props.C74_views
#print axioms Verif.Props.C75_point
#print axioms Verif.Props.C75_compiles
#print axioms Verif.Props.C76_matrix_extremes
#print axioms Verif.Props.C76_lamp_corners
#print axioms Verif.Props.C76_resolution
#print axioms Verif.Props.C76_wobbly
#print axioms Verif.Props.C76_progress
#print axioms Verif.Props.C77_null_output_partial
#print axioms Verif.Props.C77_null_uv
#print axioms Verif.Props.C78_glide_turns
#print axioms Verif.Props.C78_glide_axis
#print axioms Verif.Props.C79_bounce_count
#print axioms Verif.Props.C80_bilinear
#print axioms Verif.Props.C80_continuous
#print axioms Verif.Props.C81_bounce
#print axioms Verif.Props.C81_zoom
#print axioms Verif.Props.C81_glide
#print axioms Verif.Props.C81_lamp
#print axioms Verif.Props.C82_resize_stretches
#print axioms Verif.Props.C83_isolation
#print axioms Verif.Props.C83_others_untouched
#print axioms Verif.Props.C84_held
#print axioms Verif.Props.C84_none_left
#print axioms Verif.Props.C84_constraint_iff
#print axioms Verif.Props.C85_move_defined_iff
#print axioms Verif.Props.C85_release_defined_iff
#print axioms Verif.Props.C85_moved_from
#print axioms Verif.Props.C85_outliving
#print axioms Verif.Props.C86_write
#print axioms Verif.Props.C86_by_reference
#print axioms Verif.Props.C86_defaults
#print axioms Verif.Props.C86_next_step
#print axioms Verif.Props.C86_order
#print axioms Verif.Props.C87_forwards
#print axioms Verif.Props.C87_backwards
#print axioms Verif.Props.C88_accurate
#print axioms Verif.Props.C88_reverse_accurate
#print axioms Verif.Props.C89_one_frame_late
#print axioms Verif.Props.C89_not_early
#print axioms Verif.Props.C89_late
#print axioms Verif.Props.C90_never_ends
#print axioms Verif.Props.C90_ends_partial
#print axioms Verif.Props.C91_verdict
#print axioms Verif.Props.C91_accepts_lines
#print axioms Verif.Props.C91_only_powers
#print axioms Verif.Props.C91_blind
#print axioms Verif.Props.C92_powers
#print axioms Verif.Props.C92_constant
#print axioms Verif.Props.C92_31_samples
#print axioms Verif.Props.C93_defined_iff
#print axioms Verif.Props.C93_too_few
#print axioms Verif.Props.C93_two_samples
#print axioms Verif.Props.C94_close
#print axioms Verif.Props.C94_self
#print axioms Verif.Props.C94_nonzero
#print axioms Verif.Props.C94_integers
#print axioms Verif.Props.C94_integers_undefined
#print axioms Verif.Props.C94_unsigned
#print axioms Verif.Props.C95_free_tick
#print axioms Verif.Props.C95_held_tick
#print axioms Verif.Props.C96_rest_in_doubles
#print axioms Verif.Props.C96_far_away
#print axioms Verif.Props.C97_settled_in_doubles
#print axioms Verif.Props.C98_bounce_partial
#print axioms Verif.Props.C98_bounce_negative
#print axioms Verif.Props.C98_zoom_partial
#print axioms Verif.Props.C98_zoom_far
#print axioms Verif.Props.C98_glide
#print axioms Verif.Props.C99_bounce
#print axioms Verif.Props.C100_zoom
#print axioms Verif.Props.C101_ends_near_target
#print axioms Verif.Props.C101_same_end
#print axioms Verif.Props.C101_top_left
#print axioms Verif.Props.C101_uv_ends_near_target
#print axioms Verif.Props.C102_finite_partial
#print axioms Verif.Props.C102_close_tops
#print axioms Verif.Props.C102_close_tops_exist
#print axioms Verif.Props.C103_uv_in_bounds
#print axioms Verif.Props.C103_near_surface
#print axioms Verif.Props.C104_row_heights
#print axioms Verif.Props.C105_default
#print axioms Verif.Props.C105_linear
#print axioms Verif.Props.C105_unobserved
#print axioms Verif.Props.C106_near_surface
#print axioms Verif.Props.C106_corners
#print axioms Verif.Props.C106_in_box
#print axioms Verif.Props.C106_rest
#print axioms Verif.Props.C107_glide_place
#print axioms Verif.Props.C108_glide
#print axioms Verif.Props.C109_drag_in_doubles
#print axioms Verif.Props.C110_speed_limit
#print axioms Verif.Props.C110_from_rest
#print axioms Verif.Props.C110_inserted
#print axioms Verif.Props.C110_bounded
#print axioms Verif.Props.C111_bounded
#print axioms Verif.Props.C111_eventually
#print axioms Verif.Props.C111_too_stiff
#print axioms Verif.Props.C112_accepted
#print axioms Verif.Props.C112_accepts
#print axioms Verif.Props.C112_itself
#print axioms Verif.Props.C112_integers
#print axioms Verif.Props.C112_integers_never
#print axioms Verif.Props.C112_unsigned
#print axioms Verif.Props.C112_unsigned_above
#print axioms Verif.Props.C112_within
#print axioms Verif.Props.C113_speed_in_doubles
#print axioms Verif.Props.C114_keeps_the_place
#print axioms Verif.Props.C114_returns_iff_rests
#print axioms Verif.Props.C114_first_lengths
#print axioms Verif.Props.C114_first_lengths_partial
#print axioms Verif.Props.C114_coinciding_points
#print axioms Verif.Props.C115_again_in_doubles
#print axioms Verif.Props.C115_no_overflow
#print axioms Verif.Props.C116_once_is_not_enough
#print axioms Verif.Props.C116_twice
#print axioms Verif.Props.C116_untracked
#print axioms Verif.Props.C116_tracked
#print axioms Verif.Props.C117_linear
#print axioms Verif.Props.C117_reverse
#print axioms Verif.Props.C117_bounce
#print axioms Verif.Props.C117_glide
#print axioms Verif.Props.C117_zoom
#print axioms Verif.Props.C117_lamp
#print axioms Verif.Props.C117_needs_timed
#print axioms Verif.Props.C118_follows
#print axioms Verif.Props.C118_borders
#print axioms Verif.Props.C118_affine
#print axioms Verif.Props.C118_rate_in_rows
#print axioms Verif.Props.C118_rate_in_columns
#print axioms Verif.Props.C118_not_mirrored
#print axioms Verif.Props.C118_unfolded
#print axioms Verif.Props.C118_drag
#print axioms Verif.Props.C118_can_fold
#print axioms Verif.Props.C119_rows_and_columns
#print axioms Verif.Props.C119_reading
#print axioms Verif.Props.C119_ties
#print axioms Verif.Props.C120_level_lines
#print axioms Verif.Props.C120_in_order
#print axioms Verif.Props.C120_no_fold
#print axioms Verif.Props.C120_never_back
#print axioms Verif.Props.C120_upside_down
#print axioms Verif.Props.C120_taller_target
#print axioms Verif.Props.C121_heights
#print axioms Verif.Props.C121_one_way
#print axioms Verif.Props.C122_calls_return
#print axioms Verif.Props.C122_moves_by
#print axioms Verif.Props.C122_comes_to_rest
#print axioms Verif.Props.C122_within_eight_ticks
#print axioms Verif.Props.C122_held
#print axioms Verif.Props.C123_zoom
#print axioms Verif.Props.C123_zoom_given
#print axioms Verif.Props.C123_bounce
#print axioms Verif.Props.C123_glide
#print axioms Verif.Props.C123_lamp_rows
#print axioms Verif.Props.C123_zoom_frame_rate
#print axioms Verif.Props.C123_bounce_frame_rate
#print axioms Verif.Props.C123_glide_frame_rate
#print axioms Verif.Props.C124_no_hang
#print axioms Verif.Props.C124_calls_return
#print axioms Verif.Props.C124_moves_by
#print axioms Verif.Props.C124_comes_to_rest
#print axioms Verif.Props.C124_held
#print axioms Verif.Props.C125_mirror
#print axioms Verif.Props.C125_reading
#print axioms Verif.Props.C125_rest_is_even
#print axioms Verif.Props.C125_corner_decides
#print axioms Verif.Props.C125_insertion
#print axioms Verif.Props.C125_ties
#print axioms Verif.Props.C126_tracking
#print axioms Verif.Props.C126_locks
#print axioms Verif.Props.C126_release
#print axioms Verif.Props.C126_first_anchor
#print axioms Verif.Props.C126_springs_restored
#print axioms Verif.Props.C126_identities
#print axioms Verif.Props.C126_springs_stay
#print axioms Verif.Props.C126_undefined_iff
#print axioms Verif.Props.C126_use_after_free
#print axioms Verif.Props.C127_held
#print axioms Verif.Props.C127_velocities
#print axioms Verif.Props.C127_zero_time
#print axioms Verif.Props.C127_whole_ticks
#print axioms Verif.Props.C127_total_ticks
#print axioms Verif.Props.C127_directions
#print axioms Verif.Props.C127_move_anchor
#print axioms Verif.Props.C127_mesh_stays
#print axioms Verif.Props.C127_model_moves
#print axioms Verif.Props.C128_isolation
#print axioms Verif.Props.C128_others_untouched
#print axioms Verif.Props.C128_held
#print axioms Verif.Props.C128_none_left
#print axioms Verif.Props.C128_constraint_iff
#print axioms Verif.Props.C128_move_defined_iff
#print axioms Verif.Props.C128_release_defined_iff
#print axioms Verif.Props.C128_moved_from
#print axioms Verif.Props.C128_outliving
#print axioms Verif.Props.C128_write
#print axioms Verif.Props.C128_next_step
#print axioms Verif.Props.C128_order
#print axioms Verif.Props.C129_grab
#print axioms Verif.Props.C129_grab_clear
#print axioms Verif.Props.C129_grab_defined
#print axioms Verif.Props.C129_insert
#print axioms Verif.Props.C129_insert_never_throws
#print axioms Verif.Props.C129_insert_defined
#print axioms Verif.Props.C130_free_tick
#print axioms Verif.Props.C130_held_tick
#print axioms Verif.Props.C130_momentum
#print axioms Verif.Props.C131_inserted_in_doubles
#print axioms Verif.Props.C131_no_overflow
#print axioms Verif.Props.C132_boxed_values_are_copies
#print axioms Verif.Props.C132_read_back
#print axioms Verif.Props.C133_in_use
#print axioms Verif.Props.C133_returned_partial
#print axioms Verif.Props.C133_left_over
#print axioms Verif.Props.C133_not_returned
#print axioms Verif.Props.C134_native_history
#print axioms Verif.Props.C134_inert
#print axioms Verif.Props.C134_released_once
#print axioms Verif.Props.C134_requests
#print axioms Verif.Props.C134_settings
#print axioms Verif.Props.C134_outlived
#print axioms Verif.Props.C135_glib_in_doubles
#print axioms Verif.Props.C135_glib_no_overflow
#print axioms Verif.Props.C136_bounded
#print axioms Verif.Props.C137_dragged_together
#print axioms Verif.Props.C138_bounded
#print axioms Verif.Props.C138_no_overflow
#print axioms Verif.Props.C139_bounded
#print axioms Verif.Props.C139_no_overflow
#print axioms Verif.Props.C140_comes_down
#print axioms Verif.Props.C141_comes_down
#print axioms Verif.Props.C142_symmetric_partial
#print axioms Verif.Props.C142_zero
#print axioms Verif.Props.C142_triangle
#print axioms Verif.Props.C142_transitive
#print axioms Verif.Props.C142_mixed
#print axioms Verif.Props.C142_order_matters
#print axioms Verif.Props.C143_same_mesh
#print axioms Verif.Props.C143_itself
#print axioms Verif.Props.C144_coordinates
#print axioms Verif.Props.C144_unregistered
#print axioms Verif.Props.C144_void
#print axioms Verif.Props.C144_point
#print axioms Verif.Props.C144_vector4
#print axioms Verif.Props.C144_zeros
#print axioms Verif.Props.C145_bounded
#print axioms Verif.Props.C145_no_overflow
#print axioms Verif.Props.C146_glib_bounded
#print axioms Verif.Props.C147_glib_comes_down
#print axioms Verif.Props.C148_drawn
#print axioms Verif.Props.C148_drawn_held
#print axioms Verif.Props.C149_picture
#print axioms Verif.Props.C150_zoom
#print axioms Verif.Props.C150_bounce
#print axioms Verif.Props.C150_glide
#print axioms Verif.Props.C150_glide_new
#print axioms Verif.Props.C151_rows
#print axioms Verif.Props.C151_rows_new
#print axioms Verif.Props.C152_zoom
#print axioms Verif.Props.C152_bounce
#print axioms Verif.Props.C152_glide
#print axioms Verif.Props.C152_glide_new
#print axioms Verif.Props.C152_lamp
#print axioms Verif.Props.C152_lamp_new
#print axioms Verif.Props.C153_zoom
#print axioms Verif.Props.C153_bounce
#print axioms Verif.Props.C153_glide
#print axioms Verif.Props.C153_lamp
#print axioms Verif.Props.C153_glide_new
