import Verif.Props.Array
import Verif.Props.BitBuffer
import Verif.Props.Bitmask
import Verif.Props.Characters
import Verif.Props.ChoiceCheck
import Verif.Props.Compound
import Verif.Props.CompoundEq
import Verif.Props.CompoundInput
import Verif.Props.ConstEval
import Verif.Props.CppBind
import Verif.Props.Creator
import Verif.Props.Depth
import Verif.Props.DocAttach
import Verif.Props.DocClassic
import Verif.Props.DocComment
import Verif.Props.DocLinks
import Verif.Props.DocMarkdown
import Verif.Props.Emitters
import Verif.Props.EnumWarnings
import Verif.Props.Enumeration
import Verif.Props.ExprBounds
import Verif.Props.ExprCompare
import Verif.Props.ExprParse
import Verif.Props.Expression
import Verif.Props.Extended
import Verif.Props.Extensions
import Verif.Props.FieldCheck
import Verif.Props.Files
import Verif.Props.Float
import Verif.Props.Imports
import Verif.Props.InitFixed
import Verif.Props.JsonAccept
import Verif.Props.JsonDoc
import Verif.Props.JsonPositions
import Verif.Props.JsonReader
import Verif.Props.JsonReads
import Verif.Props.JsonText
import Verif.Props.JsonTokenizer
import Verif.Props.JsonTyped
import Verif.Props.JsonValue
import Verif.Props.Keywords
import Verif.Props.Lexer
import Verif.Props.Literal
import Verif.Props.Loading
import Verif.Props.Names
import Verif.Props.Objects
import Verif.Props.OffsetCheck
import Verif.Props.Offsets
import Verif.Props.OptionalRefs
import Verif.Props.Options
import Verif.Props.Packable
import Verif.Props.Packages
import Verif.Props.PackedArray
import Verif.Props.Params
import Verif.Props.ParseCheck
import Verif.Props.PathNames
import Verif.Props.Position
import Verif.Props.RangeCheck
import Verif.Props.Reader
import Verif.Props.Regenerate
import Verif.Props.RemoteOffsets
import Verif.Props.Reread
import Verif.Props.Rewrite
import Verif.Props.RoundTrip
import Verif.Props.Rules
import Verif.Props.RuntimeCalls
import Verif.Props.SchemaCheck
import Verif.Props.SchemaInfo
import Verif.Props.Scopes
import Verif.Props.Service
import Verif.Props.ServiceCheck
import Verif.Props.Sizes
import Verif.Props.SqlCheck
import Verif.Props.SqlChecked
import Verif.Props.SqlColumns
import Verif.Props.SqlDatabase
import Verif.Props.SqlTable
import Verif.Props.SwitchedOff
import Verif.Props.Templates
import Verif.Props.TypeCheck
import Verif.Props.TypeResolve
import Verif.Props.Valid
import Verif.Props.Version
import Verif.Props.Visibility
import Verif.Props.Walker
import Verif.Props.Warnings
import Verif.Props.Writer
/-
The axioms each theorem of MANIFEST.json depends on, printed when this file is compiled.
-/

#print axioms Zserio.C01_writer_is_concatenation
#print axioms Zserio.C01_call_outcome
#print axioms Zserio.C02_prefix_stable
#print axioms Zserio.C03_unsigned_round_trip
#print axioms Zserio.C04_signed_round_trip
#print axioms Zserio.signedVal_intBits
#print axioms Zserio.C05_write_bits
#print axioms Zserio.C05_write_signed_bits
#print axioms Zserio.C05_failing_call_unchanged
#print axioms Zserio.C06_varint_round_trip
#print axioms Zserio.C07_write_var_range
#print axioms Zserio.limits_eq
#print axioms Zserio.C08_bitsizeof_var
#print axioms Zserio.C08_bitsizeof_bytes
#print axioms Zserio.C08_bitsizeof_string
#print axioms Zserio.C08_bitsizeof_bitbuffer
#print axioms Zserio.C09_minimal
#print axioms Zserio.C09_varint_min
#print axioms Zserio.C09_monotone
#print axioms Zserio.C09_prefix_free
#print axioms Zserio.C10_position_inside
#print axioms Zserio.C10_negative_size_counterexample
#print axioms Zserio.Options.C100_accepted
#print axioms Zserio.Options.C100_enabled
#print axioms Zserio.Options.C100_printed
#print axioms Zserio.Options.C100_order
#print axioms Zserio.Options.C100_command_line
#print axioms Zserio.Options.C100_features
#print axioms Zserio.Options.C100_writer
#print axioms Zserio.Options.C100_package_partial
#print axioms Zserio.Options.C100_package_accepts
#print axioms Zserio.Options.C100_package_deviates
#print axioms Zserio.Options.C100_dot_deviates
#print axioms Zserio.Lexer.C100_case
#print axioms Zserio.Version.C101_order
#print axioms Zserio.Version.C101_strict
#print axioms Zserio.Version.C101_parse
#print axioms Zserio.Version.C101_printed
#print axioms Zserio.Version.C101_compatibility
#print axioms Zserio.Version.C101_extension
#print axioms Zserio.Version.C101_packed_partial
#print axioms Zserio.Version.C101_warning
#print axioms Zserio.Version.C101_packed_deviates
#print axioms Zserio.Version.C101_text_deviates
#print axioms Zserio.Packable.C102_total
#print axioms Zserio.Packable.C102_packable
#print axioms Zserio.Packable.C102_field
#print axioms Zserio.Packable.C102_warning
#print axioms Zserio.Packable.C102_no_effect
#print axioms Zserio.Packable.C102_union
#print axioms Zserio.Packable.C102_collected
#print axioms Zserio.Packable.C102_methods_partial
#print axioms Zserio.Packable.C102_accepted
#print axioms Zserio.Packable.C102_recursion_deviates
#print axioms Zserio.Packable.C102_packed
#print axioms Zserio.Packable.C102_silent
#print axioms Zserio.TypeResolve.C103_acyclic
#print axioms Zserio.TypeResolve.C103_total
#print axioms Zserio.TypeResolve.C103_stack
#print axioms Zserio.TypeResolve.C103_valid_partial
#print axioms Zserio.TypeResolve.C103_accepted_partial
#print axioms Zserio.TypeResolve.C103_base
#print axioms Zserio.TypeResolve.C103_base_unique
#print axioms Zserio.TypeResolve.C103_cycle_partial
#print axioms Zserio.TypeResolve.C103_overflow_deviates
#print axioms Zserio.TypeResolve.C103_cycle_deviates
#print axioms Zserio.TypeResolve.C103_parameter_deviates
#print axioms Zserio.TypeResolve.C103_time_deviates
#print axioms Zserio.Rules.C104_form
#print axioms Zserio.Rules.C104_accepted
#print axioms Zserio.Rules.C104_global
#print axioms Zserio.Rules.C104_order
#print axioms Zserio.Rules.C104_same
#print axioms Zserio.Rules.C104_packages_deviates
#print axioms Zserio.Warnings.C105_items
#print axioms Zserio.Warnings.C105_handled_partial
#print axioms Zserio.Warnings.C105_noMatch_partial
#print axioms Zserio.Warnings.C105_warned_partial
#print axioms Zserio.Warnings.C105_other
#print axioms Zserio.Warnings.C105_conditional_deviates
#print axioms Zserio.Warnings.C105_constant_deviates
#print axioms Zserio.Warnings.C105_unused
#print axioms Zserio.Warnings.C105_removable_partial
#print axioms Zserio.Warnings.C105_reported
#print axioms Zserio.Warnings.C105_expression_deviates
#print axioms Zserio.Warnings.C105_recursive_deviates
#print axioms Zserio.ExprParse.C106_parse
#print axioms Zserio.ExprParse.C106_unique
#print axioms Zserio.ExprParse.C106_prefix
#print axioms Zserio.ExprParse.C106_all
#print axioms Zserio.ExprParse.C106_read
#print axioms Zserio.ExprParse.C106_accepted
#print axioms Zserio.ExprParse.C106_tight_partial
#print axioms Zserio.ExprParse.C106_built
#print axioms Zserio.ExprParse.C106_value_partial
#print axioms Zserio.ExprParse.C106_lines_deviates
#print axioms Zserio.ExprParse.C106_lengthof_deviates
#print axioms Zserio.ServiceCheck.C107_service
#print axioms Zserio.ServiceCheck.C107_pubsub_partial
#print axioms Zserio.ServiceCheck.C107_topic_deviates
#print axioms Zserio.ServiceCheck.C107_publish
#print axioms Zserio.ServiceCheck.C107_subscribe
#print axioms Zserio.ServiceCheck.C107_unsubscribe
#print axioms Zserio.ServiceCheck.C107_dispatch
#print axioms Zserio.Lexer.C108_exact
#print axioms Zserio.Lexer.C108_lossless
#print axioms Zserio.Lexer.C108_word
#print axioms Zserio.Lexer.C108_digits
#print axioms Zserio.Lexer.C108_comment_partial
#print axioms Zserio.Lexer.C108_comment_deviates
#print axioms Zserio.Lexer.C108_empty_comment
#print axioms Zserio.Lexer.C108_layout
#print axioms Zserio.Lexer.C108_same
#print axioms Zserio.Lexer.C108_at_deviates
#print axioms Zserio.Lexer.C108_characters
#print axioms Zserio.DocAttach.C109_attached
#print axioms Zserio.DocAttach.C109_owner
#print axioms Zserio.DocAttach.C109_unused
#print axioms Zserio.DocAttach.C109_written
#print axioms Zserio.DocAttach.C109_flag
#print axioms Zserio.DocAttach.C109_sticky
#print axioms Zserio.DocAttach.Demo.C109_blank_deviates
#print axioms Zserio.DocAttach.C109_markdown_partial
#print axioms Zserio.DocAttach.C109_markdown_plain
#print axioms Zserio.DocAttach.Demo.C109_crlf_deviates
#print axioms Zserio.C11_read_bits
#print axioms Zserio.C11_read_bits_numbits
#print axioms Zserio.C11_read_signed_bits
#print axioms Zserio.C11_read_bool
#print axioms Zserio.C11_read_float
#print axioms Zserio.Loading.C110_files
#print axioms Zserio.Loading.C110_packages
#print axioms Zserio.Loading.C110_loads
#print axioms Zserio.Loading.C110_resolved
#print axioms Zserio.Loading.C110_bound
#print axioms Zserio.Loading.C110_order
#print axioms Zserio.Loading.C110_extension
#print axioms Zserio.Loading.C110_separate
#print axioms Zserio.Loading.C110_warnings
#print axioms Zserio.ParseCheck.C111_accepted_partial
#print axioms Zserio.ParseCheck.C111_documented_partial
#print axioms Zserio.ParseCheck.C111_offset
#print axioms Zserio.ParseCheck.C111_order
#print axioms Zserio.ParseCheck.Demo.C111_branch_deviates
#print axioms Zserio.SqlColumns.C112_type
#print axioms Zserio.SqlColumns.C112_stored
#print axioms Zserio.SqlColumns.C112_conversion
#print axioms Zserio.SqlColumns.C112_provider
#print axioms Zserio.SqlColumns.C112_distinct
#print axioms Zserio.SqlColumns.C112_once_partial
#print axioms Zserio.SqlColumns.C112_bytes_deviates
#print axioms Zserio.SqlColumns.C112_once_deviates
#print axioms Zserio.CppBind.C113_unset
#print axioms Zserio.CppBind.C113_python
#print axioms Zserio.CppBind.C113_cpp
#print axioms Zserio.CppBind.C113_other
#print axioms Zserio.CppBind.C113_one_implementation_partial
#print axioms Zserio.CppBind.C113_other_deviates
#print axioms Zserio.CppBind.C113_one_implementation_deviates
#print axioms Zserio.RuntimeCalls.C114_documented
#print axioms Zserio.RuntimeCalls.C114_write
#print axioms Zserio.RuntimeCalls.C114_read
#print axioms Zserio.RuntimeCalls.C114_size
#print axioms Zserio.RuntimeCalls.C114_traits
#print axioms Zserio.RuntimeCalls.C114_field
#print axioms Zserio.DocLinks.C115_own_partial
#print axioms Zserio.DocLinks.C115_type_field
#print axioms Zserio.DocLinks.C115_type
#print axioms Zserio.DocLinks.C115_package
#print axioms Zserio.DocLinks.C115_missing_member
#print axioms Zserio.DocLinks.C115_sound
#print axioms Zserio.DocLinks.C115_link_partial
#print axioms Zserio.DocLinks.C115_unresolved
#print axioms Zserio.DocLinks.C115_once
#print axioms Zserio.DocLinks.C115_bitmask_deviates
#print axioms Zserio.DocLinks.C115_template_deviates
#print axioms Zserio.DocLinks.C115_message_deviates
#print axioms Zserio.DocLinks.C115_rule_group_deviates
#print axioms Zserio.DocLinks.C115_declaration
#print axioms Zserio.DocLinks.C115_member
#print axioms Zserio.Extensions.C116_parse_error
#print axioms Zserio.Extensions.C116_first_failure
#print axioms Zserio.Extensions.C116_success_events
#print axioms Zserio.Extensions.C116_success_iff
#print axioms Zserio.Extensions.C116_complete
#print axioms Zserio.Extensions.C116_checked_before
#print axioms Zserio.Extensions.C116_called
#print axioms Zserio.Extensions.C116_cross_check
#print axioms Zserio.Extensions.C116_done
#print axioms Zserio.Extensions.C116_ignored
#print axioms Zserio.Emitters.C117_walk_partial
#print axioms Zserio.Emitters.C117_files
#print axioms Zserio.Emitters.C117_generated_partial
#print axioms Zserio.Emitters.C117_api
#print axioms Zserio.Emitters.C117_api_succeeds_partial
#print axioms Zserio.Emitters.C117_located_partial
#print axioms Zserio.Emitters.C117_nested_deviates
#print axioms Zserio.Emitters.C117_clashes_partial
#print axioms Zserio.Emitters.C117_paths_partial
#print axioms Zserio.Imports.C118_written
#print axioms Zserio.Imports.C118_imports_partial
#print axioms Zserio.Imports.C118_only_subtypes
#print axioms Zserio.Imports.C118_lost
#print axioms Zserio.Imports.C118_exact
#print axioms Zserio.Imports.Demo.C118_renamed_deviates
#print axioms Zserio.Json.C119_positions
#print axioms Zserio.Json.C119_parser
#print axioms Zserio.Json.C119_raw_deviates
#print axioms Zserio.Json.C119_reader
#print axioms Zserio.C12_trailing_bits_irrelevant
#print axioms Zserio.Markdown.C120_line
#print axioms Zserio.Markdown.C120_text
#print axioms Zserio.Markdown.C120_paragraphs
#print axioms Zserio.Markdown.C120_tags_partial
#print axioms Zserio.Markdown.C120_link_partial
#print axioms Zserio.Markdown.C120_only_files
#print axioms Zserio.Markdown.C120_bracket_deviates
#print axioms Zserio.Markdown.C120_dot_deviates
#print axioms Zserio.Markdown.C120_field_deviates
#print axioms Zserio.Markdown.C120_lines
#print axioms Zserio.Markdown.C120_comment
#print axioms Zserio.Lexer.C120_characters
#print axioms Zserio.C121_obtain
#print axioms Zserio.C121_same
#print axioms Zserio.C121_only
#print axioms Zserio.C121_write
#print axioms Zserio.C121_type_info
#print axioms Zserio.C121_type_info_deviates
#print axioms Zserio.DocClassic.C122_paragraphs
#print axioms Zserio.DocClassic.C122_lines
#print axioms Zserio.DocClassic.C122_filled
#print axioms Zserio.DocClassic.C122_unique
#print axioms Zserio.ExprParse.C123_compare
#print axioms Zserio.ExprParse.C123_same
#print axioms Zserio.ExprParse.C123_prefix
#print axioms Zserio.PathNames.C124_reads_partial
#print axioms Zserio.PathNames.C124_choice_deviates
#print axioms Zserio.PathNames.C124_items
#print axioms Zserio.PathNames.C124_values
#print axioms Zserio.PathNames.C124_constants
#print axioms Zserio.C13_var_read_in_range
#print axioms Zserio.C14_bytes_round_trip
#print axioms Zserio.C14_string_round_trip
#print axioms Zserio.C14_string_encodable
#print axioms Zserio.C14_bitbuffer_round_trip
#print axioms Zserio.C14_bitbuffer_read_back_equal
#print axioms Zserio.C15_sequence_round_trip
#print axioms Zserio.C16_alignto_agree
#print axioms Zserio.C16_writer_states
#print axioms Zserio.C17_eq_iff_used_bits
#print axioms Zserio.C17_equivalence
#print axioms Zserio.C18_hash_consistent
#print axioms Zserio.C19_bits_bytes
#print axioms Zserio.C19_bitsize_to_bytesize
#print axioms Zserio.C19_alignto
#print axioms Zserio.C20_numbits
#print axioms Zserio.C20_small
#print axioms Zserio.C20_monotone
#print axioms Zserio.C21_bounds
#print axioms Zserio.C22_range
#print axioms Zserio.C22_concatenation
#print axioms Zserio.C22_step
#print axioms Zserio.C22_int64
#print axioms Zserio.C22_values
#print axioms Zserio.C22_sequence
#print axioms Zserio.C22_injective
#print axioms Zserio.C22_injective_signed
#print axioms Zserio.C23_value
#print axioms Zserio.C23_round_trip_partial
#print axioms Zserio.C23_signaling
#print axioms Zserio.C23_counterexample
#print axioms Zserio.C24_nearest_partial
#print axioms Zserio.C24_flush
#print axioms Zserio.C24_overflow_partial
#print axioms Zserio.C24_overflow_counterexamples
#print axioms Zserio.C24_nan
#print axioms Zserio.C25_array_bitsizeof
#print axioms Zserio.C25_builtin_array_bitsizeof
#print axioms Zserio.C25_nested
#print axioms Zserio.C26_initialize_then_write
#print axioms Zserio.C26_builtin_initialize_then_write
#print axioms Zserio.C26_wrong_offset_raises
#print axioms Zserio.C27_array_round_trip
#print axioms Zserio.C27_implicit_round_trip
#print axioms Zserio.C27_builtin_round_trip
#print axioms Zserio.C27_builtin_implicit_round_trip
#print axioms Zserio.C28_packed_round_trip
#print axioms Zserio.C28_values_of_the_type_can_be_written
#print axioms Zserio.C29_bitsizeof_packed
#print axioms Zserio.C29_initialize_offsets_packed
#print axioms Zserio.C29_initialize_then_write_packed
#print axioms Zserio.C30_packing_costs_at_most_one_bit
#print axioms Zserio.C31_counterexample
#print axioms Zserio.C31_packed_read_partial
#print axioms Zserio.packed_write_unchecked
#print axioms Zserio.C32_compound_bitsizeof
#print axioms Zserio.C33_serialize_deserialize
#print axioms Zserio.C33_equal
#print axioms Zserio.C33_stream
#print axioms Zserio.C33_stream_end
#print axioms Zserio.C34_initialize_then_write
#print axioms Zserio.C34_serialize
#print axioms Zserio.C34_field_at_offset
#print axioms Zserio.C34_element_at_offset
#print axioms Zserio.C34_read_at_offset
#print axioms Zserio.C34_writable_fixed
#print axioms Zserio.C34_writable_iff
#print axioms Zserio.C34_serialize_writable
#print axioms Zserio.C34_serialize_twice
#print axioms Zserio.C35_unknown_tag
#print axioms Zserio.C35_read_tag
#print axioms Zserio.C35_union_not_selected
#print axioms Zserio.C35_choice_no_match
#print axioms Zserio.C36_new_reads_old
#print axioms Zserio.C36_new_deserializes_old
#print axioms Zserio.C36_new_deserializes_old_bytes
#print axioms Zserio.C36_old_reads_new
#print axioms Zserio.C36_old_deserializes_new
#print axioms Zserio.C36_old_deserializes_new_bytes
#print axioms Zserio.C36_absent_as_old
#print axioms Zserio.C36_rewrite
#print axioms Zserio.C37_hash_range
#print axioms Zserio.C37_equal_hash_partial
#print axioms Zserio.C37_stable_clauses
#print axioms Zserio.C37_zero_signs
#print axioms Zserio.C37_unused_field
#print axioms Zserio.C38_from_value
#print axioms Zserio.C38_bits
#print axioms Zserio.C38_or
#print axioms Zserio.C38_and
#print axioms Zserio.C38_xor
#print axioms Zserio.C38_invert
#print axioms Zserio.C38_invert_invert
#print axioms Zserio.C38_de_morgan
#print axioms Zserio.C38_eq_hash
#print axioms Zserio.C38_round_trip
#print axioms Zserio.C38_read_valid
#print axioms Zserio.C38_packed_unchecked
#print axioms Zserio.C39_round_trip
#print axioms Zserio.C39_read
#print axioms Zserio.C39_read_packed
#print axioms Zserio.C39_removed
#print axioms Zserio.C39_from_name
#print axioms Zserio.C39_call
#print axioms Zserio.C39_hash
#print axioms Zserio.C39_compound_write
#print axioms Zserio.C39_compound_read
#print axioms Zserio.C40_walk
#print axioms Zserio.C40_walk_iff
#print axioms Zserio.C40_not_compound
#print axioms Zserio.C40_determines
#print axioms Zserio.C41_any_filter
#print axioms Zserio.C41_depth
#print axioms Zserio.C41_array_length
#print axioms Zserio.C41_and
#print axioms Zserio.C41_and_depth_length
#print axioms Zserio.C41_regex_partial
#print axioms Zserio.C41_regex_values
#print axioms Zserio.C41_regex_element_ignored
#print axioms Zserio.C42_accepts
#print axioms Zserio.C42_prefix
#print axioms Zserio.C42_unchanged
#print axioms Zserio.C42_rebuild
#print axioms Zserio.C42_extended_present
#print axioms Zserio.C43_string_round_trip
#print axioms Zserio.C43_no_control
#print axioms Zserio.C43_prefix_free
#print axioms Zserio.C43_slash_rejected
#print axioms Zserio.C43_surrogates_not_combined
#print axioms Zserio.C44_int_round_trip
#print axioms Zserio.C44_separators
#print axioms Zserio.C44_bool_round_trip
#print axioms Zserio.C44_null_round_trip
#print axioms Zserio.C44_float_round_trip
#print axioms Zserio.C44_nan
#print axioms Zserio.C44_types
#print axioms Zserio.C45_chunks_partial
#print axioms Zserio.C45_chunks_errors_partial
#print axioms Zserio.C45_deviation
#print axioms Zserio.C45_terminates
#print axioms Zserio.C45_counterexample
#print axioms Zserio.C45_decoder_bounds
#print axioms Zserio.C45_decoder_stable
#print axioms Zserio.C46_parse
#print axioms Zserio.C46_parse_value
#print axioms Zserio.C46_parse_two
#print axioms Zserio.C46_no_recursion_error
#print axioms Zserio.C46_written
#print axioms Zserio.C46_round_trip
#print axioms Zserio.C46_recorded
#print axioms Zserio.C46_config
#print axioms Zserio.C47_enum
#print axioms Zserio.C47_bitmask
#print axioms Zserio.C47_digits_only
#print axioms Zserio.C48_from_bytes
#print axioms Zserio.C48_from_bytes_extended
#print axioms Zserio.C49_reader_stays_inside
#print axioms Zserio.C50_first_access
#print axioms Zserio.C50_stable
#print axioms Zserio.C50_serialization
#print axioms Zserio.C50_raw
#print axioms Zserio.C50_offsets_not_initialized
#print axioms Zserio.C51_reflexive
#print axioms Zserio.C51_symmetric_partial
#print axioms Zserio.C51_transitive_partial
#print axioms Zserio.C51_identity
#print axioms Zserio.C51_nan
#print axioms Zserio.C51_empty_case
#print axioms Zserio.C52_writer_reader
#print axioms Zserio.C52_json_string
#print axioms Zserio.C53_call
#print axioms Zserio.C53_raise
#print axioms Zserio.C53_unknown
#print axioms Zserio.C53_bad_request
#print axioms Zserio.C53_bad_response
#print axioms Zserio.C54_deliver
#print axioms Zserio.C54_failure
#print axioms Zserio.C55_accepted
#print axioms Zserio.C55_language
#print axioms Zserio.C56_string
#print axioms Zserio.C56_int
#print axioms Zserio.C56_float
#print axioms Zserio.C56_literal
#print axioms Zserio.C57_typed
#print axioms Zserio.C57_order
#print axioms Zserio.C58_document
#print axioms Zserio.C58_any
#print axioms Zserio.Sql.C59_create
#print axioms Zserio.Sql.C59_create_ordinary
#print axioms Zserio.Sql.C59_exists
#print axioms Zserio.Sql.C59_usable
#print axioms Zserio.Sql.C59_delete
#print axioms Zserio.Sql.C60_write_read
#print axioms Zserio.Sql.C60_write_succeeds
#print axioms Zserio.Sql.C60_only_adds
#print axioms Zserio.Sql.C60_condition
#print axioms Zserio.Sql.C60_checked
#print axioms Zserio.Sql.C61_write_read
#print axioms Zserio.Sql.C61_order
#print axioms Zserio.Sql.C61_unknown_partial
#print axioms Zserio.Sql.C61_single_column
#print axioms Zserio.Sql.C62_update
#print axioms Zserio.Sql.C62_others
#print axioms Zserio.Sql.C63_atomic
#print axioms Zserio.Sql.C63_nested
#print axioms Zserio.Sql.C63_open_after_failure
#print axioms Zserio.Sql.C64_from_file
#print axioms Zserio.Sql.C64_table_partial
#print axioms Zserio.Sql.C64_shadow
#print axioms Zserio.Sql.C65_create
#print axioms Zserio.Sql.C65_delete
#print axioms Zserio.Sql.C65_create_delete
#print axioms Zserio.Sql.C65_atomic
#print axioms Zserio.Sql.C65_nested
#print axioms Zserio.Sql.C66_close
#print axioms Zserio.Sql.C66_close_succeeds
#print axioms Zserio.Sql.C66_external
#print axioms Zserio.Sql.C66_closed
#print axioms Zserio.Sql.C66_leak
#print axioms Zserio.Expression.C67_syntax
#print axioms Zserio.Expression.C67_floor_partial
#print axioms Zserio.Expression.C67_value_partial
#print axioms Zserio.Expression.C67_types
#print axioms Zserio.Expression.Demo.C67_chained_comparison
#print axioms Zserio.Expression.Demo.C67_chained_less
#print axioms Zserio.Expression.Demo.C67_syntax_error
#print axioms Zserio.Expression.Demo.C67_valueof_conditional
#print axioms Zserio.Expression.Demo.C67_negative_division
#print axioms Zserio.Names.C68_scope
#print axioms Zserio.Names.C68_members_partial
#print axioms Zserio.Names.C68_attributes_partial
#print axioms Zserio.Names.C68_arguments
#print axioms Zserio.Names.Demo.C68_keyword
#print axioms Zserio.Names.Demo.C68_property
#print axioms Zserio.Names.Demo.C68_resetter
#print axioms Zserio.Names.Demo.C68_offset_checker
#print axioms Zserio.Names.C69_modules
#print axioms Zserio.Names.C69_api
#print axioms Zserio.Names.C69_files
#print axioms Zserio.Names.C69_names_partial
#print axioms Zserio.Names.C69_top_level_partial
#print axioms Zserio.Names.Demo.C69_keyword
#print axioms Zserio.Names.Demo.C69_typing
#print axioms Zserio.Names.Demo.C69_apsw
#print axioms Zserio.Names.C70_snake_case
#print axioms Zserio.Names.C70_identifier
#print axioms Zserio.Names.C70_same
#print axioms Zserio.Imports.C72_imports_partial
#print axioms Zserio.Imports.C72_exact
#print axioms Zserio.Imports.C72_subtype_cycle
#print axioms Zserio.Imports.C72_extern
#print axioms Zserio.Imports.Demo.C72_recursive
#print axioms Zserio.Imports.Demo.C72_blob
#print axioms Zserio.C73_serialize
#print axioms Zserio.C73_crash
#print axioms Zserio.C73_deserialize
#print axioms Zserio.C73_round_trip
#print axioms Zserio.Json.C73_json_file
#print axioms Zserio.Json.C73_json_lost
#print axioms Zserio.C74_write_partial
#print axioms Zserio.C74_rewrite_partial
#print axioms Zserio.C74_bytes_partial
#print axioms Zserio.C74_canonical
#print axioms Zserio.C74_valid
#print axioms Zserio.C74_again
#print axioms Zserio.C74_offsets
#print axioms Zserio.C74_stable
#print axioms Zserio.C74_removed_item
#print axioms Zserio.C74_negative_length
#print axioms Zserio.C74_empty_extension
#print axioms Zserio.C74_packed
#print axioms Zserio.C74_offset
#print axioms Zserio.C75_written
#print axioms Zserio.C75_serialized
#print axioms Zserio.C75_serialized_offsets
#print axioms Zserio.C75_round_trip
#print axioms Zserio.C75_valid_partial
#print axioms Zserio.C75_rejected_partial
#print axioms Zserio.C75_serialize_iff_partial
#print axioms Zserio.C75_serialize_offsets_iff_partial
#print axioms Zserio.C75_packed
#print axioms Zserio.Expression.C76_integer
#print axioms Zserio.Expression.C76_float
#print axioms Zserio.Expression.C76_string_partial
#print axioms Zserio.Expression.C76_octal
#print axioms Zserio.Objects.C77_separate_partial
#print axioms Zserio.Objects.C77_apart_partial
#print axioms Zserio.Objects.C77_shared
#print axioms Zserio.Objects.C77_counterexample
#print axioms Zserio.Objects.C78_construct
#print axioms Zserio.Objects.C78_set
#print axioms Zserio.Objects.C78_reset
#print axioms Zserio.Objects.C78_isSet
#print axioms Zserio.Objects.C78_member_set
#print axioms Zserio.Objects.C78_construct_member
#print axioms Zserio.Objects.C78_construct_ambiguous
#print axioms Zserio.Objects.C78_construct_empty
#print axioms Zserio.Objects.C78_other_member
#print axioms Zserio.Templates.C79_resolved_partial
#print axioms Zserio.Templates.C79_calls_partial
#print axioms Zserio.Templates.C79_names_partial
#print axioms Zserio.Templates.C79_declaration
#print axioms Zserio.Templates.C79_counterexample_instantiate
#print axioms Zserio.Templates.C79_counterexample_hash
#print axioms Zserio.Templates.C79_counterexample_subtype
#print axioms Zserio.Templates.C79_refused_subtype
#print axioms Zserio.Templates.C80_name
#print axioms Zserio.Templates.C80_distinct
#print axioms Zserio.Templates.C80_order
#print axioms Zserio.Templates.C80_core_clash
#print axioms Zserio.ConstEval.C81_values_partial
#print axioms Zserio.ConstEval.C81_enum
#print axioms Zserio.ConstEval.C81_bitmask
#print axioms Zserio.ConstEval.C81_order
#print axioms Zserio.ConstEval.C81_cyclic
#print axioms Zserio.ConstEval.C81_depth
#print axioms Zserio.ConstEval.C81_numbits_deviates
#print axioms Zserio.ConstEval.C81_complement_deviates
#print axioms Zserio.ConstEval.C81_shift_deviates
#print axioms Zserio.ConstEval.C81_lengthof_deviates
#print axioms Zserio.ConstEval.C81_conditional_deviates
#print axioms Zserio.ConstEval.C81_afterZero_deviates
#print axioms Zserio.ConstEval.C81_division_deviates
#print axioms Zserio.C82_accepts
#print axioms Zserio.C82_accepts_implicit
#print axioms Zserio.C82_rules
#print axioms Zserio.C82_buildable
#print axioms Zserio.C82_ends
#print axioms Zserio.C82_overflow
#print axioms Zserio.C83_layout
#print axioms Zserio.C83_round_trip
#print axioms Zserio.C83_implicit_layout_partial
#print axioms Zserio.C83_inBranch_deviates
#print axioms Zserio.C83_beforeBranch_deviates
#print axioms Zserio.C83_inElements_deviates
#print axioms Zserio.ChoiceCheck.C84_distinct_partial
#print axioms Zserio.ChoiceCheck.C84_selects_partial
#print axioms Zserio.ChoiceCheck.C84_order_partial
#print axioms Zserio.ChoiceCheck.C84_codec
#print axioms Zserio.ChoiceCheck.C84_bothTruths_deviates
#print axioms Zserio.ChoiceCheck.C84_sameTruth_deviates
#print axioms Zserio.ChoiceCheck.C84_sameItem_deviates
#print axioms Zserio.C85_written
#print axioms Zserio.C85_range
#print axioms Zserio.C85_range_dynamic
#print axioms Zserio.C85_constraint
#print axioms Zserio.C85_length
#print axioms Zserio.C85_params
#print axioms Zserio.C85_enum
#print axioms Zserio.C85_valid
#print axioms Zserio.C85_serialize_iff
#print axioms Zserio.C85_noPacked
#print axioms Zserio.C85_unchecked
#print axioms Zserio.C85_elements_deviates
#print axioms Zserio.ExprBounds.C86_bounds_partial
#print axioms Zserio.ExprBounds.C86_python_partial
#print axioms Zserio.ExprBounds.C86_types
#print axioms Zserio.ExprBounds.C86_dynamic
#print axioms Zserio.ExprBounds.C86_minus_deviates
#print axioms Zserio.ExprBounds.C86_shiftRight_deviates
#print axioms Zserio.ExprBounds.C86_shiftLeft_deviates
#print axioms Zserio.ExprBounds.C86_numbits_deviates
#print axioms Zserio.ExprBounds.C86_tilde_deviates
#print axioms Zserio.ExprBounds.C86_dynamic_deviates
#print axioms Zserio.ExprBounds.C86_tree_deviates
#print axioms Zserio.C87_regular
#print axioms Zserio.C87_reader
#print axioms Zserio.C87_deserialize
#print axioms Zserio.C87_tame
#print axioms Zserio.C87_json_partial
#print axioms Zserio.C87_bytes_partial
#print axioms Zserio.C87_packed_deviates
#print axioms Zserio.C87_nan_deviates
#print axioms Zserio.C87_empty_case_deviates
#print axioms Zserio.C87_extended_deviates
#print axioms Zserio.C87_setter
#print axioms Zserio.C87_new
#print axioms Zserio.Visibility.C88_found_iff
#print axioms Zserio.Visibility.C88_unknown_iff
#print axioms Zserio.Visibility.C88_sound
#print axioms Zserio.Visibility.C88_order
#print axioms Zserio.Visibility.C88_local_partial
#print axioms Zserio.Visibility.C88_single_partial
#print axioms Zserio.Visibility.C88_qualified_partial
#print axioms Zserio.Visibility.C88_not_imported
#print axioms Zserio.Visibility.C88_expression_partial
#print axioms Zserio.Visibility.C88_identifier
#print axioms Zserio.Visibility.C88_local_deviates
#print axioms Zserio.Visibility.C88_single_deviates
#print axioms Zserio.Visibility.C88_qualified_deviates
#print axioms Zserio.Visibility.C88_expression_deviates
#print axioms Zserio.Scopes.C89_names
#print axioms Zserio.Scopes.C89_scopes
#print axioms Zserio.Scopes.C89_order_partial
#print axioms Zserio.Scopes.C89_meaning_partial
#print axioms Zserio.Scopes.C89_acyclic
#print axioms Zserio.Scopes.C89_accepted_iff
#print axioms Zserio.Scopes.C89_accepts
#print axioms Zserio.Scopes.C89_order_deviates
#print axioms Zserio.Scopes.C89_meaning_deviates
#print axioms Zserio.Scopes.C89_isset_deviates
#print axioms Zserio.Params.C90_check_iff
#print axioms Zserio.Params.C90_reread_partial
#print axioms Zserio.Params.C90_read_keeps
#print axioms Zserio.Params.C90_operator
#print axioms Zserio.Params.C90_bits
#print axioms Zserio.Params.C90_operator_deviates
#print axioms Zserio.Params.C90_nan_deviates
#print axioms Zserio.Params.C90_equal_deviates
#print axioms Zserio.C91_object
#print axioms Zserio.C91_equal
#print axioms Zserio.C91_limit
#print axioms Zserio.C91_equal_limit
#print axioms Zserio.C91_read_unique
#print axioms Zserio.C91_chain
#print axioms Zserio.Doc.C92_literal_partial
#print axioms Zserio.Doc.C92_comment_partial
#print axioms Zserio.Doc.C92_quotes
#print axioms Zserio.Doc.C92_backslash_deviates
#print axioms Zserio.Doc.C92_escape_deviates
#print axioms Zserio.OffsetCheck.C93_rules_partial
#print axioms Zserio.OffsetCheck.C93_serialize_partial
#print axioms Zserio.OffsetCheck.C93_optional_deviates
#print axioms Zserio.OffsetCheck.C93_expressions
#print axioms Zserio.OffsetCheck.C93_functions
#print axioms Zserio.OffsetCheck.C93_refused
#print axioms Zserio.OffsetCheck.C93_path
#print axioms Zserio.OffsetCheck.C93_target
#print axioms Zserio.OffsetCheck.C93_selector
#print axioms Zserio.Remote.C94_changes
#print axioms Zserio.Remote.C94_write_partial
#print axioms Zserio.Remote.C94_serialize_partial
#print axioms Zserio.Remote.C94_shared_object_deviates
#print axioms Zserio.Remote.C94_shared_header_deviates
#print axioms Zserio.Remote.C94_accepted
#print axioms Zserio.Remote.C94_parameter
#print axioms Zserio.Remote.C94_parameter_deviates
#print axioms Zserio.Remote.C94_setter
#print axioms Zserio.Regen.C95_run
#print axioms Zserio.Regen.C95_force
#print axioms Zserio.Regen.C95_unchanged
#print axioms Zserio.Regen.C95_refused
#print axioms Zserio.Regen.C95_finishes
#print axioms Zserio.Regen.C95_incremental_partial
#print axioms Zserio.Regen.C95_crash_deviates
#print axioms Zserio.Regen.C95_edit_deviates
#print axioms Zserio.Regen.C95_copy_deviates
#print axioms Zserio.Regen.C95_two_deviates
#print axioms Zserio.Regen.C95_stale_deviates
#print axioms Zserio.SqlCheck.C96_accepted
#print axioms Zserio.SqlCheck.C96_key_column
#print axioms Zserio.SqlCheck.C96_not_null
#print axioms Zserio.SqlCheck.C96_key_text
#print axioms Zserio.SqlCheck.C96_key_refused
#print axioms Zserio.SqlCheck.C96_unique_text_partial
#print axioms Zserio.SqlCheck.C96_without_rowid
#print axioms Zserio.SqlCheck.C96_database
#print axioms Zserio.SqlCheck.C96_silent
#print axioms Zserio.SqlCheck.C96_named
#print axioms Zserio.SqlCheck.C96_unique_deviates
#print axioms Zserio.SqlCheck.C96_two_keys_deviates
#print axioms Zserio.SqlCheck.C96_refused_deviates
#print axioms Zserio.SqlCheck.C96_keyword_deviates
#print axioms Zserio.SqlCheck.C96_text_deviates
#print axioms Zserio.TypeCheck.C97_sound_partial
#print axioms Zserio.TypeCheck.C97_accepts
#print axioms Zserio.TypeCheck.C97_exact
#print axioms Zserio.TypeCheck.C97_progress_partial
#print axioms Zserio.TypeCheck.C97_python_partial
#print axioms Zserio.TypeCheck.Demo.C97_order_deviates
#print axioms Zserio.TypeCheck.Demo.C97_mixed_deviates
#print axioms Zserio.TypeCheck.Demo.C97_dot_deviates
#print axioms Zserio.TypeCheck.Demo.C97_remainder_deviates
#print axioms Zserio.TypeCheck.C97_joined
#print axioms Zserio.Expression.OptionalRefs.C98_expression_partial
#print axioms Zserio.Expression.OptionalRefs.C98_clause_partial
#print axioms Zserio.Expression.OptionalRefs.C98_field_partial
#print axioms Zserio.Expression.OptionalRefs.C98_field_clause_partial
#print axioms Zserio.Expression.OptionalRefs.C98_warned
#print axioms Zserio.Expression.OptionalRefs.C98_mentioned
#print axioms Zserio.Expression.OptionalRefs.C98_function_partial
#print axioms Zserio.Expression.OptionalRefs.C98_auto
#print axioms Zserio.Expression.OptionalRefs.C98_unguarded
#print axioms Zserio.Expression.OptionalRefs.C98_guarded
#print axioms Zserio.Expression.OptionalRefs.Demo.C98_ternary_deviates
#print axioms Zserio.Expression.OptionalRefs.Demo.C98_twice_deviates
#print axioms Zserio.Expression.OptionalRefs.Demo.C98_nested_deviates
#print axioms Zserio.Expression.OptionalRefs.Demo.C98_other_object_deviates
#print axioms Zserio.Expression.OptionalRefs.Demo.C98_array_deviates
#print axioms Zserio.Expression.OptionalRefs.Demo.C98_two_paths_deviates
#print axioms Zserio.Expression.OptionalRefs.Demo.C98_spurious_deviates
#print axioms Zserio.FieldCheck.C99_rules_partial
#print axioms Zserio.FieldCheck.C99_accepts
#print axioms Zserio.FieldCheck.C99_default_partial
#print axioms Zserio.FieldCheck.C99_default_constant
#print axioms Zserio.FieldCheck.C99_alignment_partial
#print axioms Zserio.FieldCheck.C99_conditions_partial
#print axioms Zserio.FieldCheck.C99_lengths_partial
#print axioms Zserio.FieldCheck.C99_arguments_partial
#print axioms Zserio.FieldCheck.C99_alignment_zero_deviates
#print axioms Zserio.FieldCheck.C99_alignment_item_deviates
#print axioms Zserio.FieldCheck.C99_alignment_division_deviates
#print axioms Zserio.FieldCheck.C99_default_choice_deviates
#print axioms Zserio.FieldCheck.C99_default_division_deviates
#print axioms Zserio.FieldCheck.C99_default_bits_deviates
#print axioms Zserio.FieldCheck.C99_length_deviates
#print axioms Zserio.FieldCheck.C99_argument_deviates
