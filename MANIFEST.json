{"claims": [
{"property": "C01", "status": "proved", "theorems": ["Zserio.C01_writer_is_concatenation", "Zserio.C01_call_outcome"], "note": "all public write methods, failing calls included"},
{"property": "C02", "status": "proved", "theorems": ["Zserio.C02_prefix_stable"], "note": ""},
{"property": "C03", "status": "proved", "theorems": ["Zserio.C03_unsigned_round_trip"], "note": ""},
{"property": "C04", "status": "proved", "theorems": ["Zserio.C04_signed_round_trip", "Zserio.signedVal_intBits"], "note": ""},
{"property": "C05", "status": "proved", "theorems": ["Zserio.C05_write_bits", "Zserio.C05_write_signed_bits", "Zserio.C05_failing_call_unchanged"], "note": ""},
{"property": "C06", "status": "proved", "theorems": ["Zserio.C06_varint_round_trip"], "note": ""},
{"property": "C07", "status": "proved", "theorems": ["Zserio.C07_write_var_range", "Zserio.limits_eq"], "note": ""},
{"property": "C08", "status": "proved", "theorems": ["Zserio.C08_bitsizeof_var", "Zserio.C08_bitsizeof_bytes", "Zserio.C08_bitsizeof_string", "Zserio.C08_bitsizeof_bitbuffer"], "note": ""},
{"property": "C09", "status": "proved", "theorems": ["Zserio.C09_minimal", "Zserio.C09_varint_min", "Zserio.C09_monotone", "Zserio.C09_prefix_free"], "note": "the one exception, varint INT64_MIN with its one-byte code, is C09_varint_min"},
{"property": "C10", "status": "proved", "theorems": ["Zserio.C10_position_inside", "Zserio.C10_negative_size_counterexample"], "note": "for readers created with a non-negative bit size; the constructor also accepts a negative one, for which the claim is false (counterexample proved)"},
{"property": "C100", "status": "partial", "theorems": ["Zserio.Options.C100_accepted", "Zserio.Options.C100_enabled", "Zserio.Options.C100_printed", "Zserio.Options.C100_order", "Zserio.Options.C100_command_line", "Zserio.Options.C100_features", "Zserio.Options.C100_writer", "Zserio.Options.C100_package_partial", "Zserio.Options.C100_package_accepts", "Zserio.Options.C100_package_deviates", "Zserio.Options.C100_dot_deviates", "Zserio.Lexer.C100_case"], "note": "Warnings and switches are characterised completely. For the top level package the check is right for texts of letters, digits, underscores and dots which do not end with a dot; other texts are accepted although they are no names of packages, with witnesses. The splitting of the command line by the library Commons CLI is not modelled."},
{"property": "C101", "status": "partial", "theorems": ["Zserio.Version.C101_order", "Zserio.Version.C101_strict", "Zserio.Version.C101_parse", "Zserio.Version.C101_printed", "Zserio.Version.C101_compatibility", "Zserio.Version.C101_extension", "Zserio.Version.C101_packed_partial", "Zserio.Version.C101_warning", "Zserio.Version.C101_packed_deviates", "Zserio.Version.C101_text_deviates"], "note": "Order, texts, compatibility versions and extensions are characterised completely for texts without line terminators. The check of packed arrays uses only the version of the root package: another package which asks for compatibility with 2.4.2 and has packed arrays is accepted with a warning, with a witness."},
{"property": "C102", "status": "partial", "theorems": ["Zserio.Packable.C102_total", "Zserio.Packable.C102_packable", "Zserio.Packable.C102_field", "Zserio.Packable.C102_warning", "Zserio.Packable.C102_no_effect", "Zserio.Packable.C102_union", "Zserio.Packable.C102_collected", "Zserio.Packable.C102_methods_partial", "Zserio.Packable.C102_accepted", "Zserio.Packable.C102_recursion_deviates", "Zserio.Packable.C102_packed", "Zserio.Packable.C102_silent"], "note": "Which types can be packed, the warnings and the collected types are characterised completely. That all methods which are called exist is proved for schemas in which a type with a packed array of itself is used in a packed array of another type, too, or has only built-in fields; otherwise it is wrong, with an accepted schema as witness."},
{"property": "C103", "status": "partial", "theorems": ["Zserio.TypeResolve.C103_acyclic", "Zserio.TypeResolve.C103_total", "Zserio.TypeResolve.C103_stack", "Zserio.TypeResolve.C103_valid_partial", "Zserio.TypeResolve.C103_accepted_partial", "Zserio.TypeResolve.C103_base", "Zserio.TypeResolve.C103_base_unique", "Zserio.TypeResolve.C103_cycle_partial", "Zserio.TypeResolve.C103_overflow_deviates", "Zserio.TypeResolve.C103_cycle_deviates", "Zserio.TypeResolve.C103_parameter_deviates", "Zserio.TypeResolve.C103_time_deviates"], "note": "Termination without cycles, absence of cycles in accepted schemas and the base types are proved without restriction. Accepted references are right unless an unknown name in a subtype is that of a template parameter (witness). A cycle is reported if the first definition which leads to it is on it; otherwise, for all schemas whose first definition is such a subtype, there is a StackOverflowError. The time is exponential for some schemas."},
{"property": "C104", "status": "proved", "theorems": ["Zserio.Rules.C104_form", "Zserio.Rules.C104_accepted", "Zserio.Rules.C104_global", "Zserio.Rules.C104_order", "Zserio.Rules.C104_same", "Zserio.Rules.C104_packages_deviates"], "note": "The accepted schemas are characterised exactly, with and without the option. Without the option (the default) identifiers are unique within packages only, which differs from the language guide (witness), but not from the user guide."},
{"property": "C105", "status": "partial", "theorems": ["Zserio.Warnings.C105_items", "Zserio.Warnings.C105_handled_partial", "Zserio.Warnings.C105_noMatch_partial", "Zserio.Warnings.C105_warned_partial", "Zserio.Warnings.C105_other", "Zserio.Warnings.C105_conditional_deviates", "Zserio.Warnings.C105_constant_deviates", "Zserio.Warnings.C105_unused", "Zserio.Warnings.C105_removable_partial", "Zserio.Warnings.C105_reported", "Zserio.Warnings.C105_expression_deviates", "Zserio.Warnings.C105_recursive_deviates"], "note": "What the compiler warns about is characterised exactly. The guarantees hold for cases without conditional operators, for cases which are items, and for types whose items are not used in expressions; witnesses show that the code violates the claim otherwise."},
{"property": "C106", "status": "partial", "theorems": ["Zserio.ExprParse.C106_parse", "Zserio.ExprParse.C106_unique", "Zserio.ExprParse.C106_prefix", "Zserio.ExprParse.C106_all", "Zserio.ExprParse.C106_read", "Zserio.ExprParse.C106_accepted", "Zserio.ExprParse.C106_tight_partial", "Zserio.ExprParse.C106_built", "Zserio.ExprParse.C106_value_partial", "Zserio.ExprParse.C106_lines_deviates", "Zserio.ExprParse.C106_lengthof_deviates"], "note": "The accepted texts and their trees are characterised exactly. That >> contains no spaces is proved for expressions on one line; witnesses show that it can be split over two lines, and that lengthof needs parentheses. Part of the property fails in the code, hence partial."},
{"property": "C107", "status": "partial", "theorems": ["Zserio.ServiceCheck.C107_service", "Zserio.ServiceCheck.C107_pubsub_partial", "Zserio.ServiceCheck.C107_topic_deviates", "Zserio.ServiceCheck.C107_publish", "Zserio.ServiceCheck.C107_subscribe", "Zserio.ServiceCheck.C107_unsubscribe", "Zserio.ServiceCheck.C107_dispatch"], "note": "Acceptance of services and the connection of the generated methods are proved in full. That topics are constant strings is proved for messages which are not bytes; the witness shows that a message of type bytes is accepted with a number as its topic. Part of the property fails in the code, hence partial."},
{"property": "C108", "status": "partial", "theorems": ["Zserio.Lexer.C108_exact", "Zserio.Lexer.C108_lossless", "Zserio.Lexer.C108_word", "Zserio.Lexer.C108_digits", "Zserio.Lexer.C108_comment_partial", "Zserio.Lexer.C108_comment_deviates", "Zserio.Lexer.C108_empty_comment", "Zserio.Lexer.C108_layout", "Zserio.Lexer.C108_same", "Zserio.Lexer.C108_at_deviates", "Zserio.Lexer.C108_characters"], "note": "The tokens of every text are characterised exactly. That a comment ends at its first */ is proved for every comment except /**/; a witness shows that /**/ swallows what follows up to the end of the next comment, and another one that @removed is recognised at the beginning of a longer word. Part of the property fails in the code, hence partial."},
{"property": "C109", "status": "partial", "theorems": ["Zserio.DocAttach.C109_attached", "Zserio.DocAttach.C109_owner", "Zserio.DocAttach.C109_unused", "Zserio.DocAttach.C109_written", "Zserio.DocAttach.C109_flag", "Zserio.DocAttach.C109_sticky", "Zserio.DocAttach.Demo.C109_blank_deviates", "Zserio.DocAttach.C109_markdown_partial", "Zserio.DocAttach.C109_markdown_plain", "Zserio.DocAttach.Demo.C109_crlf_deviates"], "note": "Which comments belong to a declaration, the warnings, which comments are written and when a comment is separated by an empty line are characterised exactly. A comment separated from its declaration by an empty line is neither written nor reported, with a witness. Indented Markdown is proved for line feeds; with Windows line breaks an empty line keeps the indentation, with a witness. Part of the property fails in the code, hence partial."},
{"property": "C11", "status": "proved", "theorems": ["Zserio.C11_read_bits", "Zserio.C11_read_bits_numbits", "Zserio.C11_read_signed_bits", "Zserio.C11_read_bool", "Zserio.C11_read_float"], "note": ""},
{"property": "C110", "status": "proved", "theorems": ["Zserio.Loading.C110_files", "Zserio.Loading.C110_packages", "Zserio.Loading.C110_loads", "Zserio.Loading.C110_resolved", "Zserio.Loading.C110_bound", "Zserio.Loading.C110_order", "Zserio.Loading.C110_extension", "Zserio.Loading.C110_separate", "Zserio.Loading.C110_warnings"], "note": "Files read, packages known, acceptance, termination, independence of the order of imports and warnings are characterised for all files. Syntax errors count as missing files."},
{"property": "C111", "status": "partial", "theorems": ["Zserio.ParseCheck.C111_accepted_partial", "Zserio.ParseCheck.C111_documented_partial", "Zserio.ParseCheck.C111_offset", "Zserio.ParseCheck.C111_order", "Zserio.ParseCheck.Demo.C111_branch_deviates"], "note": "What passes is characterised exactly, for all files. @index in arguments of arrays in choices and unions is refused although the guide allows it for arrays, with a witness, hence partial; for all other files the characterisation is that of the guide."},
{"property": "C112", "status": "partial", "theorems": ["Zserio.SqlColumns.C112_type", "Zserio.SqlColumns.C112_stored", "Zserio.SqlColumns.C112_conversion", "Zserio.SqlColumns.C112_provider", "Zserio.SqlColumns.C112_distinct", "Zserio.SqlColumns.C112_once_partial", "Zserio.SqlColumns.C112_bytes_deviates", "Zserio.SqlColumns.C112_once_deviates"], "note": "Types, conversions and methods are characterised exactly; the rules of SQLite for the types of columns are part of the trusted base. Partial: tables with columns of type bytes or extern are accepted by the compiler but the generator fails, and an explicit argument for parameters of a type and its subtype gives two methods of one name (counterexamples proved)."},
{"property": "C113", "status": "proved", "theorems": ["Zserio.CppBind.C113_unset", "Zserio.CppBind.C113_python", "Zserio.CppBind.C113_cpp", "Zserio.CppBind.C113_other", "Zserio.CppBind.C113_one_implementation_partial", "Zserio.CppBind.C113_other_deviates", "Zserio.CppBind.C113_one_implementation_deviates"], "note": "All values of the variable are covered. Other values than the documented ones prevent the import although the documentation of the function says that they choose Python, and an incomplete C++ module leads to a mixture of both implementations (counterexamples proved)."},
{"property": "C114", "status": "proved", "theorems": ["Zserio.RuntimeCalls.C114_documented", "Zserio.RuntimeCalls.C114_write", "Zserio.RuntimeCalls.C114_read", "Zserio.RuntimeCalls.C114_size", "Zserio.RuntimeCalls.C114_traits", "Zserio.RuntimeCalls.C114_field"], "note": "The names of functions are texts built as in the compiler and looked up in the tables of the runtime library. Fields of enumerations, bitmasks, compounds and arrays call methods of the generated classes and of Array instead (C19, C20)."},
{"property": "C115", "status": "partial", "theorems": ["Zserio.DocLinks.C115_own_partial", "Zserio.DocLinks.C115_type_field", "Zserio.DocLinks.C115_type", "Zserio.DocLinks.C115_package", "Zserio.DocLinks.C115_missing_member", "Zserio.DocLinks.C115_sound", "Zserio.DocLinks.C115_link_partial", "Zserio.DocLinks.C115_unresolved", "Zserio.DocLinks.C115_once", "Zserio.DocLinks.C115_bitmask_deviates", "Zserio.DocLinks.C115_template_deviates", "Zserio.DocLinks.C115_message_deviates", "Zserio.DocLinks.C115_rule_group_deviates", "Zserio.DocLinks.C115_declaration", "Zserio.DocLinks.C115_member"], "note": "Partial because the code deviates: values of a bitmask are not found in its own comments, members of templates and messages which are only subscribed to get links which lead to nothing, and references to groups of rules stop the generator (all proved)."},
{"property": "C116", "status": "proved", "theorems": ["Zserio.Extensions.C116_parse_error", "Zserio.Extensions.C116_first_failure", "Zserio.Extensions.C116_success_events", "Zserio.Extensions.C116_success_iff", "Zserio.Extensions.C116_complete", "Zserio.Extensions.C116_checked_before", "Zserio.Extensions.C116_called", "Zserio.Extensions.C116_cross_check", "Zserio.Extensions.C116_done", "Zserio.Extensions.C116_ignored"], "note": "Extensions are given by the results of isEnabled, check and process; how their jar files are found is not modelled."},
{"property": "C117", "status": "partial", "theorems": ["Zserio.Emitters.C117_walk_partial", "Zserio.Emitters.C117_files", "Zserio.Emitters.C117_generated_partial", "Zserio.Emitters.C117_api", "Zserio.Emitters.C117_api_succeeds_partial", "Zserio.Emitters.C117_located_partial", "Zserio.Emitters.C117_nested_deviates", "Zserio.Emitters.C117_clashes_partial", "Zserio.Emitters.C117_paths_partial"], "note": "Partial because the code deviates: an instantiate declaration with an argument which is itself instantiated in another package than its template is not respected, and the generator may fail (proved); the theorems assume that for the reference of each declaration that declaration was found. What api offers is proved without assumptions."},
{"property": "C118", "status": "partial", "theorems": ["Zserio.Imports.C118_written", "Zserio.Imports.C118_imports_partial", "Zserio.Imports.C118_only_subtypes", "Zserio.Imports.C118_lost", "Zserio.Imports.C118_exact", "Zserio.Imports.Demo.C118_renamed_deviates"], "note": "Partial because the code deviates: another name (subtype) for a type which is switched off is still written and added to api, and neither its module nor api can be imported (proved). C118_exact says that this is the only reason, under the conditions of C72."},
{"property": "C119", "status": "partial", "theorems": ["Zserio.Json.C119_positions", "Zserio.Json.C119_parser", "Zserio.Json.C119_raw_deviates", "Zserio.Json.C119_reader"], "note": "Partial because the code deviates: strings with line breaks which are not escaped are accepted, and what follows is reported in the wrong line (proved). C119_positions is complete up to the first such string; the position of the end of the text does not count a final carriage return."},
{"property": "C12", "status": "proved", "theorems": ["Zserio.C12_trailing_bits_irrelevant"], "note": ""},
{"property": "C120", "status": "partial", "theorems": ["Zserio.Markdown.C120_line", "Zserio.Markdown.C120_text", "Zserio.Markdown.C120_paragraphs", "Zserio.Markdown.C120_tags_partial", "Zserio.Markdown.C120_link_partial", "Zserio.Markdown.C120_only_files", "Zserio.Markdown.C120_bracket_deviates", "Zserio.Markdown.C120_dot_deviates", "Zserio.Markdown.C120_field_deviates", "Zserio.Markdown.C120_lines", "Zserio.Markdown.C120_comment", "Zserio.Lexer.C120_characters"], "note": "That nothing is lost and the paragraphs are proved without restriction. That links become tags is proved for lines in which all opening brackets belong to links and for paths of names without dots: a bracket before a link hides it (proved deviation), a dot in the name of a directory counts as a slash, and a link to a file in the comment of a type with a field of the same name leads to the field."},
{"property": "C121", "status": "partial", "theorems": ["Zserio.C121_obtain", "Zserio.C121_same", "Zserio.C121_only", "Zserio.C121_write", "Zserio.C121_type_info", "Zserio.C121_type_info_deviates"], "note": "Partial because the code deviates: every call of type_info fires a warning for every deprecated item (proved). All other parts are proved without restriction, writing for enumerations which the grammar allows."},
{"property": "C122", "status": "proved", "theorems": ["Zserio.DocClassic.C122_paragraphs", "Zserio.DocClassic.C122_lines", "Zserio.DocClassic.C122_filled", "Zserio.DocClassic.C122_unique"], "note": "For all sequences of elements the parser may find; how the grammar DocComment.g4 divides the text of a comment into elements is not modelled."},
{"property": "C123", "status": "proved", "theorems": ["Zserio.ExprParse.C123_compare", "Zserio.ExprParse.C123_same", "Zserio.ExprParse.C123_prefix"], "note": "On the trees of the parser (C106), with identifiers resolved. Texts are lists of pieces; hash codes of different objects are taken to be different."},
{"property": "C124", "status": "partial", "theorems": ["Zserio.PathNames.C124_reads_partial", "Zserio.PathNames.C124_choice_deviates", "Zserio.PathNames.C124_items", "Zserio.PathNames.C124_values", "Zserio.PathNames.C124_constants"], "note": "Paths which have a value read it, without restriction except that the attributes of an object have different names (C68). Partial because the code deviates: in choices and unions the name of a field which is not chosen reads the value of the chosen field (proved). Calls of functions, indices and columns of SQL tables are not part of the paths."},
{"property": "C13", "status": "proved", "theorems": ["Zserio.C13_var_read_in_range"], "note": ""},
{"property": "C14", "status": "proved", "theorems": ["Zserio.C14_bytes_round_trip", "Zserio.C14_string_round_trip", "Zserio.C14_string_encodable", "Zserio.C14_bitbuffer_round_trip", "Zserio.C14_bitbuffer_read_back_equal"], "note": ""},
{"property": "C15", "status": "proved", "theorems": ["Zserio.C15_sequence_round_trip"], "note": ""},
{"property": "C16", "status": "proved", "theorems": ["Zserio.C16_alignto_agree", "Zserio.C16_writer_states"], "note": ""},
{"property": "C17", "status": "proved", "theorems": ["Zserio.C17_eq_iff_used_bits", "Zserio.C17_equivalence"], "note": ""},
{"property": "C18", "status": "proved", "theorems": ["Zserio.C18_hash_consistent"], "note": ""},
{"property": "C19", "status": "proved", "theorems": ["Zserio.C19_bits_bytes", "Zserio.C19_bitsize_to_bytesize", "Zserio.C19_alignto"], "note": ""},
{"property": "C20", "status": "proved", "theorems": ["Zserio.C20_numbits", "Zserio.C20_small", "Zserio.C20_monotone"], "note": ""},
{"property": "C21", "status": "proved", "theorems": ["Zserio.C21_bounds"], "note": ""},
{"property": "C22", "status": "proved", "theorems": ["Zserio.C22_range", "Zserio.C22_concatenation", "Zserio.C22_step", "Zserio.C22_int64", "Zserio.C22_values", "Zserio.C22_sequence", "Zserio.C22_injective", "Zserio.C22_injective_signed"], "note": ""},
{"property": "C23", "status": "partial", "theorems": ["Zserio.C23_value", "Zserio.C23_round_trip_partial", "Zserio.C23_signaling", "Zserio.C23_counterexample"], "note": "value preserved for all patterns; pattern preserved for all but signalling NaNs, for which the claim is false"},
{"property": "C24", "status": "partial", "theorems": ["Zserio.C24_nearest_partial", "Zserio.C24_flush", "Zserio.C24_overflow_partial", "Zserio.C24_overflow_counterexamples", "Zserio.C24_nan"], "note": "false in (2^-25,2^-24) and for most finite values above the range; counterexamples proved"},
{"property": "C25", "status": "proved", "theorems": ["Zserio.C25_array_bitsizeof", "Zserio.C25_builtin_array_bitsizeof", "Zserio.C25_nested"], "note": "For all element traits with exact element sizes, all configurations in which setter and checker are both present or both absent; instantiated for every built-in element type."},
{"property": "C26", "status": "proved", "theorems": ["Zserio.C26_initialize_then_write", "Zserio.C26_builtin_initialize_then_write", "Zserio.C26_wrong_offset_raises"], "note": "Offsets recorded in an indexed offset array."},
{"property": "C27", "status": "proved", "theorems": ["Zserio.C27_array_round_trip", "Zserio.C27_implicit_round_trip", "Zserio.C27_builtin_round_trip", "Zserio.C27_builtin_implicit_round_trip"], "note": "Generic in the element traits; instantiated for every built-in element type."},
{"property": "C28", "status": "proved", "theorems": ["Zserio.C28_packed_round_trip", "Zserio.C28_values_of_the_type_can_be_written"], "note": "All integral traits (fixed and dynamic bit fields, all variable-length types), any configuration incl. indexed offsets. Packed arrays of objects are covered by C49."},
{"property": "C29", "status": "proved", "theorems": ["Zserio.C29_bitsizeof_packed", "Zserio.C29_initialize_offsets_packed", "Zserio.C29_initialize_then_write_packed"], "note": ""},
{"property": "C30", "status": "proved", "theorems": ["Zserio.C30_packing_costs_at_most_one_bit"], "note": ""},
{"property": "C31", "status": "partial", "theorems": ["Zserio.C31_counterexample", "Zserio.C31_packed_read_partial", "Zserio.packed_write_unchecked"], "note": "The property is false of the code: elements stored as deltas are not range checked, C31_counterexample reads 256 from a packed array of 8 bit numbers. Proved instead: reading stays inside the stream, first element in range, later ones in range or within 2^63 of their predecessor."},
{"property": "C32", "status": "proved", "theorems": ["Zserio.C32_compound_bitsizeof"], "note": "All schemas of the modelled language (Model/Schema.lean, Model/Compound.lean), all objects, all positions."},
{"property": "C33", "status": "proved", "theorems": ["Zserio.C33_serialize_deserialize", "Zserio.C33_equal", "Zserio.C33_stream", "Zserio.C33_stream_end"], "note": "What is read back is StoredAs / Canonical in Spec/Compound.lean; the schema satisfies the layout rules of the compiler."},
{"property": "C34", "status": "proved", "theorems": ["Zserio.C34_initialize_then_write", "Zserio.C34_serialize", "Zserio.C34_field_at_offset", "Zserio.C34_element_at_offset", "Zserio.C34_read_at_offset", "Zserio.C34_writable_fixed", "Zserio.C34_writable_iff", "Zserio.C34_serialize_writable", "Zserio.C34_serialize_twice"], "note": "Offset fields are earlier fields of the same structure (the compiler also allows offsets inside nested objects, which are not modelled); they are required, not extended fields. Indexed offsets of packed arrays are covered by C34_initialize_then_write and C34_writable_fixed, not by C34_element_at_offset. The last four theorems: an object which can be written is a fixed point of initialize_offsets, for every schema."},
{"property": "C35", "status": "proved", "theorems": ["Zserio.C35_unknown_tag", "Zserio.C35_read_tag", "Zserio.C35_union_not_selected", "Zserio.C35_choice_no_match"], "note": ""},
{"property": "C36", "status": "proved", "theorems": ["Zserio.C36_new_reads_old", "Zserio.C36_new_deserializes_old", "Zserio.C36_new_deserializes_old_bytes", "Zserio.C36_old_reads_new", "Zserio.C36_old_deserializes_new", "Zserio.C36_old_deserializes_new_bytes", "Zserio.C36_absent_as_old", "Zserio.C36_rewrite"], "note": "two versions of a structure sharing the types of their fields; any number of old and new extended fields"},
{"property": "C37", "status": "partial", "theorems": ["Zserio.C37_hash_range", "Zserio.C37_equal_hash_partial", "Zserio.C37_stable_clauses", "Zserio.C37_zero_signs", "Zserio.C37_unused_field"], "note": "range for all objects; equal objects hash alike except with -0.0 or with clauses reading optional fields that are set but not used: both proved to break the property"},
{"property": "C38", "status": "proved", "theorems": ["Zserio.C38_from_value", "Zserio.C38_bits", "Zserio.C38_or", "Zserio.C38_and", "Zserio.C38_xor", "Zserio.C38_invert", "Zserio.C38_invert_invert", "Zserio.C38_de_morgan", "Zserio.C38_eq_hash", "Zserio.C38_round_trip", "Zserio.C38_read_valid", "Zserio.C38_packed_unchecked"], "note": "For every bitmask type accepted by the compiler. C38_packed_unchecked records that a value read from a packed array is not checked against the bounds (the statement of C38 does not claim it is)."},
{"property": "C39", "status": "proved", "theorems": ["Zserio.C39_round_trip", "Zserio.C39_read", "Zserio.C39_read_packed", "Zserio.C39_removed", "Zserio.C39_from_name", "Zserio.C39_call", "Zserio.C39_hash", "Zserio.C39_compound_write", "Zserio.C39_compound_read"], "note": "Removed items can still be read (C39_read), as intended by the language. Round trip in packed arrays: C33."},
{"property": "C40", "status": "proved", "theorems": ["Zserio.C40_walk", "Zserio.C40_walk_iff", "Zserio.C40_not_compound", "Zserio.C40_determines"], "note": "C40_walk: every node exactly once, in order, well nested. C40_determines: equal names and simple values in equal nesting give equal objects (up to which extended fields are present)."},
{"property": "C41", "status": "proved", "theorems": ["Zserio.C41_any_filter", "Zserio.C41_depth", "Zserio.C41_array_length", "Zserio.C41_and", "Zserio.C41_and_depth_length", "Zserio.C41_regex_partial", "Zserio.C41_regex_values", "Zserio.C41_regex_element_ignored"], "note": "exact sets of visited nodes for each filter of the library; RegexWalkFilter ignores matches of compound array elements themselves, which is stated exactly (RegexAccepts) and shown by C41_regex_element_ignored"},
{"property": "C42", "status": "proved", "theorems": ["Zserio.C42_accepts", "Zserio.C42_prefix", "Zserio.C42_unchanged", "Zserio.C42_rebuild", "Zserio.C42_extended_present"], "note": "C42_rebuild gives the identical object if all extended fields are present; otherwise an object with the same values in which they are present (C42_extended_present)."},
{"property": "C43", "status": "proved", "theorems": ["Zserio.C43_string_round_trip", "Zserio.C43_no_control", "Zserio.C43_prefix_free", "Zserio.C43_slash_rejected", "Zserio.C43_surrogates_not_combined"], "note": "strings of any code points; the decoder rejects the escape \\/ and does not combine surrogate escapes (neither is produced by the encoder)"},
{"property": "C44", "status": "proved", "theorems": ["Zserio.C44_int_round_trip", "Zserio.C44_separators", "Zserio.C44_bool_round_trip", "Zserio.C44_null_round_trip", "Zserio.C44_float_round_trip", "Zserio.C44_nan", "Zserio.C44_types"], "note": "unbounded integers, booleans, null; floats under the law float(repr(x)) = x of the standard library, all NaNs become one"},
{"property": "C45", "status": "partial", "theorems": ["Zserio.C45_chunks_partial", "Zserio.C45_chunks_errors_partial", "Zserio.C45_deviation", "Zserio.C45_terminates", "Zserio.C45_counterexample", "Zserio.C45_decoder_bounds", "Zserio.C45_decoder_stable"], "note": "Proved for every text that does not end in a plain value (in particular for every JSON object or array). The full statement is false of the code: C45_counterexample (a plain value after a chunk of blanks is reported as end of file). C45_deviation shows that this is the only deviation."},
{"property": "C46", "status": "proved", "theorems": ["Zserio.C46_parse", "Zserio.C46_parse_value", "Zserio.C46_parse_two", "Zserio.C46_no_recursion_error", "Zserio.C46_written", "Zserio.C46_round_trip", "Zserio.C46_recorded", "Zserio.C46_config"], "note": "The writer emits a text of the JSON grammar for every well-nested event sequence of writable values, with any valid separators and indent; the parser, whatever the chunks and the observer, reports exactly the keys and values. C46_no_recursion_error shows the recursion bound of the model is never reached."},
{"property": "C47", "status": "proved", "theorems": ["Zserio.C47_enum", "Zserio.C47_bitmask", "Zserio.C47_digits_only"], "note": "For every item of an enumeration and every non-negative value within the bounds of a bitmask, in both formats. C47_digits_only records that a string of digits raises IndexError for a bitmask (such a text is never written)."},
{"property": "C48", "status": "proved", "theorems": ["Zserio.C48_from_bytes", "Zserio.C48_from_bytes_extended"], "note": ""},
{"property": "C49", "status": "proved", "theorems": ["Zserio.C49_reader_stays_inside"], "note": "Termination is the totality of the model (nesting depth bounded by the parameter n of Schema.codec)."},
{"property": "C50", "status": "proved", "theorems": ["Zserio.C50_first_access", "Zserio.C50_stable", "Zserio.C50_serialization", "Zserio.C50_raw", "Zserio.C50_offsets_not_initialized"], "note": "For every history of accesses and changes of the object. C50_offsets_not_initialized records that the wrapper, unlike serialize_to_bytes, does not initialize offsets."},
{"property": "C51", "status": "partial", "theorems": ["Zserio.C51_reflexive", "Zserio.C51_symmetric_partial", "Zserio.C51_transitive_partial", "Zserio.C51_identity", "Zserio.C51_nan", "Zserio.C51_empty_case", "Zserio.C37_unused_field"], "note": "reflexive without NaN; symmetric and transitive for stable clauses, proved to fail otherwise"},
{"property": "C52", "status": "proved", "theorems": ["Zserio.C52_writer_reader", "Zserio.C52_json_string"], "note": "Full stack: walker, writer, tokenizer, parser, reader adapter and tree creator. The parts of Python which convert numbers and text are trusted parameters (PyText.Lawful)."},
{"property": "C53", "status": "proved", "theorems": ["Zserio.C53_call", "Zserio.C53_raise", "Zserio.C53_unknown", "Zserio.C53_bad_request", "Zserio.C53_bad_response"], "note": "Requests and responses of closed compound types (those whose end does not depend on the end of the stream) or bytes."},
{"property": "C54", "status": "proved", "theorems": ["Zserio.C54_deliver", "Zserio.C54_failure"], "note": "Messages of closed compound types or bytes."},
{"property": "C55", "status": "proved", "theorems": ["Zserio.C55_accepted", "Zserio.C55_language"], "note": "C55_accepted: any chunks; C55_language: the exact language for texts in one chunk (for several chunks the deviation of C45 applies)."},
{"property": "C56", "status": "proved", "theorems": ["Zserio.C56_string", "Zserio.C56_int", "Zserio.C56_float", "Zserio.C56_literal"], "note": "Exact grammars; float() is a parameter of the model."},
{"property": "C57", "status": "proved", "theorems": ["Zserio.C57_typed", "Zserio.C57_order"], "note": "For regular schemas whose default values have the types of their fields. C57_order records that the order of the members matters."},
{"property": "C58", "status": "proved", "theorems": ["Zserio.C58_document", "Zserio.C58_any"], "note": "Spec/JsonReads.lean is the meaning of documents; field names are not empty (a rule of the schema language)."},
{"property": "C59", "status": "proved", "theorems": ["Zserio.Sql.C59_create", "Zserio.Sql.C59_create_ordinary", "Zserio.Sql.C59_exists", "Zserio.Sql.C59_usable", "Zserio.Sql.C59_delete"], "note": "SQLite and apsw are a trusted model (Model/Sql.lean): the texts of statements are parsed and executed on tables in files. Names are names of SQL, constraint texts are well-formed."},
{"property": "C60", "status": "proved", "theorems": ["Zserio.Sql.C60_write_read", "Zserio.Sql.C60_write_succeeds", "Zserio.Sql.C60_only_adds", "Zserio.Sql.C60_condition", "Zserio.Sql.C60_checked"], "note": "SQLite and apsw are a trusted model (Model/Sql.lean): the texts of statements are parsed and executed on tables in files. Integers outside of 64 bits raise OverflowError (example), booleans are read as integers, offsets in blobs are those of the object written."},
{"property": "C61", "status": "partial", "theorems": ["Zserio.Sql.C61_write_read", "Zserio.Sql.C61_order", "Zserio.Sql.C61_unknown_partial", "Zserio.Sql.C61_single_column"], "note": "SQLite and apsw are a trusted model (Model/Sql.lean): the texts of statements are parsed and executed on tables in files. The rejection of unknown names is false for tables with one column: COLUMN_NAMES is a string there (C61_single_column)."},
{"property": "C62", "status": "proved", "theorems": ["Zserio.Sql.C62_update", "Zserio.Sql.C62_others"], "note": "SQLite and apsw are a trusted model (Model/Sql.lean): the texts of statements are parsed and executed on tables in files."},
{"property": "C63", "status": "proved", "theorems": ["Zserio.Sql.C63_atomic", "Zserio.Sql.C63_nested", "Zserio.Sql.C63_open_after_failure"], "note": "SQLite and apsw are a trusted model (Model/Sql.lean): the texts of statements are parsed and executed on tables in files. C63_open_after_failure proves what goes wrong after an exception."},
{"property": "C64", "status": "partial", "theorems": ["Zserio.Sql.C64_from_file", "Zserio.Sql.C64_table_partial", "Zserio.Sql.C64_shadow"], "note": "SQLite and apsw are a trusted model (Model/Sql.lean). False for tables missing in their own file (C64_shadow). File names contain no quote (C66_leak shows what happens otherwise)."},
{"property": "C65", "status": "proved", "theorems": ["Zserio.Sql.C65_create", "Zserio.Sql.C65_delete", "Zserio.Sql.C65_create_delete", "Zserio.Sql.C65_atomic", "Zserio.Sql.C65_nested"], "note": "SQLite and apsw are a trusted model (Model/Sql.lean)."},
{"property": "C66", "status": "proved", "theorems": ["Zserio.Sql.C66_close", "Zserio.Sql.C66_close_succeeds", "Zserio.Sql.C66_external", "Zserio.Sql.C66_closed", "Zserio.Sql.C66_leak"], "note": "SQLite and apsw are a trusted model (Model/Sql.lean). C66_leak: from_file leaves its connection open when it raises."},
{"property": "C67", "status": "partial", "theorems": ["Zserio.Expression.C67_syntax", "Zserio.Expression.C67_floor_partial", "Zserio.Expression.C67_value_partial", "Zserio.Expression.C67_types", "Zserio.Expression.Demo.C67_chained_comparison", "Zserio.Expression.Demo.C67_chained_less", "Zserio.Expression.Demo.C67_syntax_error", "Zserio.Expression.Demo.C67_valueof_conditional", "Zserio.Expression.Demo.C67_negative_division"], "note": "False of the code in general (counterexamples C67_chained_comparison, C67_chained_less, C67_syntax_error, C67_valueof_conditional, C67_negative_division). Proved for every well-typed expression whose operands of == and != are not unparenthesised comparisons, whose right operands of == and != are not unparenthesised negations, where valueof is not applied to an unparenthesised conditional expression of an enumeration, and (for the value of the language guide) no integer division has a negative operand."},
{"property": "C68", "status": "partial", "theorems": ["Zserio.Names.C68_scope", "Zserio.Names.C68_members_partial", "Zserio.Names.C68_attributes_partial", "Zserio.Names.C68_arguments", "Zserio.Names.Demo.C68_keyword", "Zserio.Names.Demo.C68_property", "Zserio.Names.Demo.C68_resetter", "Zserio.Names.Demo.C68_offset_checker"], "note": "False of the code without side conditions: names which become a keyword or property in snake case, names of resetters and of offset helpers are not refused (counterexamples Names.Demo.C68_*). Proved for all other accepted names and all options."},
{"property": "C69", "status": "partial", "theorems": ["Zserio.Names.C69_modules", "Zserio.Names.C69_api", "Zserio.Names.C69_files", "Zserio.Names.C69_names_partial", "Zserio.Names.C69_top_level_partial", "Zserio.Names.Demo.C69_keyword", "Zserio.Names.Demo.C69_typing", "Zserio.Names.Demo.C69_apsw"], "note": "Importability by a statement is false of the code for symbols whose module name is a keyword, and the modules typing, enum and apsw can be hidden by generated files (counterexamples Names.Demo.C69_*). Proved: paths, lookup of every module, contents of the api modules for all accepted schemas; names and top level packages with side conditions."},
{"property": "C70", "status": "proved", "theorems": ["Zserio.Names.C70_snake_case", "Zserio.Names.C70_identifier", "Zserio.Names.C70_same"], "note": "Both regular expression replacements are modelled left to right without overlap; the specification is one pass over the name."},
{"property": "C72", "status": "partial", "theorems": ["Zserio.Imports.C72_imports_partial", "Zserio.Imports.C72_exact", "Zserio.Imports.C72_subtype_cycle", "Zserio.Imports.C72_extern", "Zserio.Imports.Demo.C72_recursive", "Zserio.Imports.Demo.C72_blob"], "note": "False of the code for a type which refers to another name (subtype) of itself and for subtypes of extern (counterexamples Imports.Demo.C72_*). Proved: without these every order of imports succeeds, and the condition on subtypes is exact."},
{"property": "C73", "status": "proved", "theorems": ["Zserio.C73_serialize", "Zserio.C73_crash", "Zserio.C73_deserialize", "Zserio.C73_round_trip", "Zserio.Json.C73_json_file", "Zserio.Json.C73_json_lost"], "note": "C73_json_lost is a finding: to_json_file empties the file before it finds out whether the object can be written."},
{"property": "C74", "status": "partial", "theorems": ["Zserio.C74_write_partial", "Zserio.C74_rewrite_partial", "Zserio.C74_bytes_partial", "Zserio.C74_canonical", "Zserio.C74_valid", "Zserio.C74_again", "Zserio.C74_offsets", "Zserio.C74_stable", "Zserio.C74_removed_item", "Zserio.C74_negative_length", "Zserio.C74_empty_extension", "Zserio.C74_packed", "Zserio.C74_offset"], "note": "Proved without further conditions for schemas without offsets and packed arrays and objects without removed enumeration items, negative array lengths and present extended fields of no bits (_partial). For all schemas: what has been read is canonical (C74_canonical); if it is valid (C75), it can be written and is read back (C74_valid, with offsets C74_offsets); whenever it can be written, only its offsets change and it is read back (C74_again), and the bits are stable from then on (C74_stable). For each of the exclusions the claim fails, which is proved."},
{"property": "C75", "status": "partial", "theorems": ["Zserio.C75_written", "Zserio.C75_serialized", "Zserio.C75_serialized_offsets", "Zserio.C75_round_trip", "Zserio.C75_valid_partial", "Zserio.C75_rejected_partial", "Zserio.C75_serialize_iff_partial", "Zserio.C75_serialize_offsets_iff_partial", "Zserio.C75_packed"], "note": "That valid objects are written is proved for all schemas. That no other objects are written is proved for schemas without packed arrays; for packed arrays it fails, since values stored as differences are not checked (C75_packed)."},
{"property": "C76", "status": "partial", "theorems": ["Zserio.Expression.C76_integer", "Zserio.Expression.C76_float", "Zserio.Expression.C76_string_partial", "Zserio.Expression.C76_octal"], "note": "Proved for all integer and float literals and for all string literals without escapes of the form backslash 0coo. For these the claim fails (C76_octal): Python reads at most three octal digits, so the documented single character becomes two."},
{"property": "C77", "status": "partial", "theorems": ["Zserio.Objects.C77_separate_partial", "Zserio.Objects.C77_apart_partial", "Zserio.Objects.C77_shared", "Zserio.Objects.C77_counterexample"], "note": "Proved for all programs in which calls of constructors give a value to each field of type bytes that is neither optional nor an array. Without it the claim fails (C77_shared, C77_counterexample): the default value bytearray() is evaluated once, so that all objects created with it share it."},
{"property": "C78", "status": "proved", "theorems": ["Zserio.Objects.C78_construct", "Zserio.Objects.C78_set", "Zserio.Objects.C78_reset", "Zserio.Objects.C78_isSet", "Zserio.Objects.C78_member_set", "Zserio.Objects.C78_construct_member", "Zserio.Objects.C78_construct_ambiguous", "Zserio.Objects.C78_construct_empty", "Zserio.Objects.C78_other_member"], "note": "C78_other_member records that getters of unions and choices do not check which member is selected."},
{"property": "C79", "status": "partial", "theorems": ["Zserio.Templates.C79_resolved_partial", "Zserio.Templates.C79_calls_partial", "Zserio.Templates.C79_names_partial", "Zserio.Templates.C79_declaration", "Zserio.Templates.C79_counterexample_instantiate", "Zserio.Templates.C79_counterexample_hash", "Zserio.Templates.C79_counterexample_subtype", "Zserio.Templates.C79_refused_subtype"], "note": "Proved for schemas without declarations instantiate and without subtypes of templates as arguments, if hash codes tell names longer than 64 characters apart; with declarations instantiate for arguments which are settled. Which declaration instantiate is used is proved for all references in their own package. False in general, three counterexamples: the code silently uses another class, or two classes for one instantiation."},
{"property": "C80", "status": "proved", "theorems": ["Zserio.Templates.C80_name", "Zserio.Templates.C80_distinct", "Zserio.Templates.C80_order", "Zserio.Templates.C80_core_clash"], "note": "C80_core_clash records that the core alone does not keep names apart; the check of modules of the Python extension does."},
{"property": "C81", "status": "partial", "theorems": ["Zserio.ConstEval.C81_values_partial", "Zserio.ConstEval.C81_enum", "Zserio.ConstEval.C81_bitmask", "Zserio.ConstEval.C81_order", "Zserio.ConstEval.C81_cyclic", "Zserio.ConstEval.C81_depth", "Zserio.ConstEval.C81_numbits_deviates", "Zserio.ConstEval.C81_complement_deviates", "Zserio.ConstEval.C81_shift_deviates", "Zserio.ConstEval.C81_lengthof_deviates", "Zserio.ConstEval.C81_conditional_deviates", "Zserio.ConstEval.C81_afterZero_deviates", "Zserio.ConstEval.C81_division_deviates"], "note": "Distinctness, ranges, independence of the order, circularity and termination are proved for all schemas; the values for all schemas without the operations which the compiler computes differently from the language guide, each of which is shown by a theorem C81_*_deviates."},
{"property": "C82", "status": "proved", "theorems": ["Zserio.C82_accepts", "Zserio.C82_accepts_implicit", "Zserio.C82_rules", "Zserio.C82_buildable", "Zserio.C82_ends", "Zserio.C82_overflow"], "note": "C82_accepts and C82_accepts_implicit are equivalences for the two settings of -allowImplicitArrays and a stack that is larger than the number of types; C82_overflow shows that a schema with indirect recursion may be refused by a stack overflow instead of a message."},
{"property": "C83", "status": "partial", "theorems": ["Zserio.C83_layout", "Zserio.C83_round_trip", "Zserio.C83_implicit_layout_partial", "Zserio.C83_inBranch_deviates", "Zserio.C83_beforeBranch_deviates", "Zserio.C83_inElements_deviates"], "note": "Proved for all schemas accepted with the default options. With -allowImplicitArrays the statement is false: three accepted schemas whose data is not read back are given; the layout is proved for implicit arrays at the end of outermost structures."},
{"property": "C84", "status": "partial", "theorems": ["Zserio.ChoiceCheck.C84_distinct_partial", "Zserio.ChoiceCheck.C84_selects_partial", "Zserio.ChoiceCheck.C84_order_partial", "Zserio.ChoiceCheck.C84_codec", "Zserio.ChoiceCheck.C84_bothTruths_deviates", "Zserio.ChoiceCheck.C84_sameTruth_deviates", "Zserio.ChoiceCheck.C84_sameItem_deviates"], "note": "Proved for all choices whose equal case values the compiler recognises (all integers with known values; literals and items otherwise) and, for bool, one value per case. The rest of the statement is false: see the theorems C84_*_deviates."},
{"property": "C85", "status": "proved", "theorems": ["Zserio.C85_written", "Zserio.C85_range", "Zserio.C85_range_dynamic", "Zserio.C85_constraint", "Zserio.C85_length", "Zserio.C85_params", "Zserio.C85_enum", "Zserio.C85_valid", "Zserio.C85_serialize_iff", "Zserio.C85_noPacked", "Zserio.C85_unchecked", "Zserio.C85_elements_deviates"], "note": "Proved for every schema; C85_unchecked and C85_elements_deviates show what the range check option adds and that it does not cover elements of packed arrays."},
{"property": "C86", "status": "partial", "theorems": ["Zserio.ExprBounds.C86_bounds_partial", "Zserio.ExprBounds.C86_python_partial", "Zserio.ExprBounds.C86_types", "Zserio.ExprBounds.C86_dynamic", "Zserio.ExprBounds.C86_minus_deviates", "Zserio.ExprBounds.C86_shiftRight_deviates", "Zserio.ExprBounds.C86_shiftLeft_deviates", "Zserio.ExprBounds.C86_numbits_deviates", "Zserio.ExprBounds.C86_tilde_deviates", "Zserio.ExprBounds.C86_dynamic_deviates", "Zserio.ExprBounds.C86_tree_deviates"], "note": "The full statement is false of the code: the bounds of unary minus are exchanged, those of shifts by a variable amount, of numbits(0) and the value of ~ on a bitmask item are wrong (counterexamples proved, with a schema refused because of it). Proved for every expression which does not use these operators in these ways."},
{"property": "C87", "status": "partial", "theorems": ["Zserio.C87_regular", "Zserio.C87_reader", "Zserio.C87_deserialize", "Zserio.C87_tame", "Zserio.C87_json_partial", "Zserio.C87_bytes_partial", "Zserio.C87_packed_deviates", "Zserio.C87_nan_deviates", "Zserio.C87_empty_case_deviates", "Zserio.C87_extended_deviates", "Zserio.C87_setter", "Zserio.C87_new"], "note": "The type info describes every object which is read: proved in full for every schema. The way through JSON is proved for every object without NaNs and without bitmasks out of bounds (which only packed arrays can read); the object is identical unless the schema has extended fields or empty cases of choices, and otherwise equal in all values. The exceptions are deviations of the code, proved by counterexamples."},
{"property": "C88", "status": "partial", "theorems": ["Zserio.Visibility.C88_found_iff", "Zserio.Visibility.C88_unknown_iff", "Zserio.Visibility.C88_sound", "Zserio.Visibility.C88_order", "Zserio.Visibility.C88_local_partial", "Zserio.Visibility.C88_single_partial", "Zserio.Visibility.C88_qualified_partial", "Zserio.Visibility.C88_not_imported", "Zserio.Visibility.C88_expression_partial", "Zserio.Visibility.C88_identifier", "Zserio.Visibility.C88_local_deviates", "Zserio.Visibility.C88_single_deviates", "Zserio.Visibility.C88_qualified_deviates", "Zserio.Visibility.C88_expression_deviates"], "note": "Exactly which symbol is found is proved for all packages, imports and names, and so is the independence of the order of imports. The precedence of local symbols over imports by name, of imports by name over imports of whole packages, and the use of qualified names are proved in the cases in which they hold; in the other cases the code deviates from the language guide, proved by counterexamples."},
{"property": "C89", "status": "partial", "theorems": ["Zserio.Scopes.C89_names", "Zserio.Scopes.C89_scopes", "Zserio.Scopes.C89_order_partial", "Zserio.Scopes.C89_meaning_partial", "Zserio.Scopes.C89_acyclic", "Zserio.Scopes.C89_accepted_iff", "Zserio.Scopes.C89_accepts", "Zserio.Scopes.C89_order_deviates", "Zserio.Scopes.C89_meaning_deviates", "Zserio.Scopes.C89_isset_deviates"], "note": "Scopes, the absence of recursion and exactly which compound types are accepted are proved without restriction. That only earlier fields are read, and that names mean fields, is proved for all fields whose name is not also that of a symbol of the package or of an item which can be used without its type; for such names it is false (functions are resolved by the last call), proved by counterexamples."},
{"property": "C90", "status": "partial", "theorems": ["Zserio.Params.C90_check_iff", "Zserio.Params.C90_reread_partial", "Zserio.Params.C90_read_keeps", "Zserio.Params.C90_operator", "Zserio.Params.C90_bits", "Zserio.Params.C90_operator_deviates", "Zserio.Params.C90_nan_deviates", "Zserio.Params.C90_equal_deviates"], "note": "Exactly what the check accepts is proved without restriction, and so is that reading changes no other object. That an object which was read passes is proved for arguments which refer to objects and for values which are no NaN; for results of operators of bitmasks and for NaNs it is false, proved by counterexamples and for all objects (C90_operator)."},
{"property": "C91", "status": "proved", "theorems": ["Zserio.C91_object", "Zserio.C91_equal", "Zserio.C91_limit", "Zserio.C91_equal_limit", "Zserio.C91_read_unique", "Zserio.C91_chain"], "note": "The stack is counted in nested calls of methods of generated objects, not in frames of the interpreter. C91_chain shows that the bound is exact for chains of any length."},
{"property": "C92", "status": "partial", "theorems": ["Zserio.Doc.C92_literal_partial", "Zserio.Doc.C92_comment_partial", "Zserio.Doc.C92_quotes", "Zserio.Doc.C92_backslash_deviates", "Zserio.Doc.C92_escape_deviates"], "note": "Proved for comments without backslashes and without three double quotes in a row; for comments without backslashes the condition on quotes is exact (C92_quotes). With backslashes it is false: generated modules can be syntax errors, or the documentation can differ from the comment."},
{"property": "C93", "status": "partial", "theorems": ["Zserio.OffsetCheck.C93_rules_partial", "Zserio.OffsetCheck.C93_serialize_partial", "Zserio.OffsetCheck.C93_optional_deviates", "Zserio.OffsetCheck.C93_expressions", "Zserio.OffsetCheck.C93_functions", "Zserio.OffsetCheck.C93_refused", "Zserio.OffsetCheck.C93_path", "Zserio.OffsetCheck.C93_target", "Zserio.OffsetCheck.C93_selector"], "note": "That expressions and functions of accepted schemas do not depend on offsets is proved without restriction. That serializing never raises the exception for a wrong offset is proved for offsets which are fields of the same structure and are there; for optional fields used as offsets, which the compiler accepts, it is false (counterexample proved). Offsets in parameters and in nested objects are not modelled."},
{"property": "C94", "status": "partial", "theorems": ["Zserio.Remote.C94_changes", "Zserio.Remote.C94_write_partial", "Zserio.Remote.C94_serialize_partial", "Zserio.Remote.C94_shared_object_deviates", "Zserio.Remote.C94_shared_header_deviates", "Zserio.Remote.C94_accepted", "Zserio.Remote.C94_parameter", "Zserio.Remote.C94_parameter_deviates", "Zserio.Remote.C94_setter"], "note": "What initialize_offsets changes is proved without restriction. That writing does not raise the exception for a wrong offset is proved if no two values store their offset in the same place; otherwise it is false (counterexamples proved: an object which is used twice, an array of objects with the same parameter). The compiler accepts parameters of other objects as offsets, which are never set (counterexample proved). Extended fields and packing are not modelled here."},
{"property": "C95", "status": "partial", "theorems": ["Zserio.Regen.C95_run", "Zserio.Regen.C95_force", "Zserio.Regen.C95_unchanged", "Zserio.Regen.C95_refused", "Zserio.Regen.C95_finishes", "Zserio.Regen.C95_incremental_partial", "Zserio.Regen.C95_crash_deviates", "Zserio.Regen.C95_edit_deviates", "Zserio.Regen.C95_copy_deviates", "Zserio.Regen.C95_two_deviates", "Zserio.Regen.C95_stale_deviates"], "note": "The effect of one run, generation with -ignoreTimestamps, refused schemas and termination are proved without restriction. Incremental generation is proved for histories in which files change only between runs and get the time of the change, there is one main schema file, and no run stops in the middle of a file; without these it is false (counterexamples proved). Files of removed types stay (counterexample proved). What the compiler generates is a parameter of the model."},
{"property": "C96", "status": "partial", "theorems": ["Zserio.SqlCheck.C96_accepted", "Zserio.SqlCheck.C96_key_column", "Zserio.SqlCheck.C96_not_null", "Zserio.SqlCheck.C96_key_text", "Zserio.SqlCheck.C96_key_refused", "Zserio.SqlCheck.C96_unique_text_partial", "Zserio.SqlCheck.C96_without_rowid", "Zserio.SqlCheck.C96_database", "Zserio.SqlCheck.C96_silent", "Zserio.SqlCheck.C96_named", "Zserio.SqlCheck.C96_unique_deviates", "Zserio.SqlCheck.C96_two_keys_deviates", "Zserio.SqlCheck.C96_refused_deviates", "Zserio.SqlCheck.C96_keyword_deviates", "Zserio.SqlCheck.C96_text_deviates"], "note": "The accepted tables and databases, the tables without warnings, and the meaning of the texts PRIMARY KEY, NOT NULL and PRIMARY KEY(columns) are characterised exactly. For UNIQUE(columns) it is proved of the first clause only, since further ones are not checked (counterexample proved). Tables which SQLite refuses are accepted and conversely (counterexamples proved)."},
{"property": "C97", "status": "partial", "theorems": ["Zserio.TypeCheck.C97_sound_partial", "Zserio.TypeCheck.C97_accepts", "Zserio.TypeCheck.C97_exact", "Zserio.TypeCheck.C97_progress_partial", "Zserio.TypeCheck.C97_python_partial", "Zserio.TypeCheck.Demo.C97_order_deviates", "Zserio.TypeCheck.Demo.C97_mixed_deviates", "Zserio.TypeCheck.Demo.C97_dot_deviates", "Zserio.TypeCheck.Demo.C97_remainder_deviates", "Zserio.TypeCheck.C97_joined"], "note": "Acceptance, soundness and freedom from exceptions are proved of all expressions which keep four rules that the compiler does not check, and these are shown to be all that it misses (C97_exact); for each of them an accepted expression without a type is given, three of which make generated code fail (TypeError or a syntax error). Joining of strings which are not constant and conditional arrays are refused although the guide does not exclude them (hypothesis Supported). Templates, extern types and the ranges of integers are not modelled."},
{"property": "C98", "status": "partial", "theorems": ["Zserio.Expression.OptionalRefs.C98_expression_partial", "Zserio.Expression.OptionalRefs.C98_clause_partial", "Zserio.Expression.OptionalRefs.C98_field_partial", "Zserio.Expression.OptionalRefs.C98_field_clause_partial", "Zserio.Expression.OptionalRefs.C98_warned", "Zserio.Expression.OptionalRefs.C98_mentioned", "Zserio.Expression.OptionalRefs.C98_function_partial", "Zserio.Expression.OptionalRefs.C98_auto", "Zserio.Expression.OptionalRefs.C98_unguarded", "Zserio.Expression.OptionalRefs.C98_guarded", "Zserio.Expression.OptionalRefs.Demo.C98_ternary_deviates", "Zserio.Expression.OptionalRefs.Demo.C98_twice_deviates", "Zserio.Expression.OptionalRefs.Demo.C98_nested_deviates", "Zserio.Expression.OptionalRefs.Demo.C98_other_object_deviates", "Zserio.Expression.OptionalRefs.Demo.C98_array_deviates", "Zserio.Expression.OptionalRefs.Demo.C98_two_paths_deviates", "Zserio.Expression.OptionalRefs.Demo.C98_spurious_deviates"], "note": "Silence implies that absent fields are not asked for, for expressions without the conditional operator, with one path per optional field, and conditions which mention a field once and have no && below other operators on the left of &&. Each of these hypotheses is needed: for each a schema without warnings whose generated code asks for an absent field is given. Which references by name lead to which warning is characterised exactly; there are also warnings about references which are always fine. Hash codes of objects of the syntax tree are taken to be different."},
{"property": "C99", "status": "partial", "theorems": ["Zserio.FieldCheck.C99_rules_partial", "Zserio.FieldCheck.C99_accepts", "Zserio.FieldCheck.C99_default_partial", "Zserio.FieldCheck.C99_default_constant", "Zserio.FieldCheck.C99_alignment_partial", "Zserio.FieldCheck.C99_conditions_partial", "Zserio.FieldCheck.C99_lengths_partial", "Zserio.FieldCheck.C99_arguments_partial", "Zserio.FieldCheck.C99_alignment_zero_deviates", "Zserio.FieldCheck.C99_alignment_item_deviates", "Zserio.FieldCheck.C99_alignment_division_deviates", "Zserio.FieldCheck.C99_default_choice_deviates", "Zserio.FieldCheck.C99_default_division_deviates", "Zserio.FieldCheck.C99_default_bits_deviates", "Zserio.FieldCheck.C99_length_deviates", "Zserio.FieldCheck.C99_argument_deviates"], "note": "Accepted fields keep to the rules if their expressions do in the places where the compiler does not look (C97), and all fields which keep to the rules are accepted. Missing, each with a witness: the alignment 0 and alignments by items of enumerations, integers which the compiler computes in another way than Python or not at all, bit fields with a number of bits which is not known, negative lengths, the ranges of integer parameters."}
]}
