# Axioms each theorem depends on

Generated by `tools/axioms.py` from `#print axioms`.

## propext

* `Verif.Props.arabic_digits_fails`
* `Verif.Props.arabic_leading_marks_fails`
* `Verif.Props.blend_opaque_fails`
* `Verif.Props.changed_file_fails`
* `Verif.Props.cmap_lookup_panics_fails`
* `Verif.Props.compressed_iff`
* `Verif.Props.container_unchanged`
* `Verif.Props.drained_fails`
* `Verif.Props.duplicate_left_fails`
* `Verif.Props.early_anchor_fails`
* `Verif.Props.early_outline_fails`
* `Verif.Props.font_resource_fails`
* `Verif.Props.indexed_mask_fails`
* `Verif.Props.levels`
* `Verif.Props.link_destination`
* `Verif.Props.link_without_page`
* `Verif.Props.mask_then_drawn_fails`
* `Verif.Props.masked_then_drawn_fails`
* `Verif.Props.objectkey_standard`
* `Verif.Props.opaque_collides_fails`
* `Verif.Props.orphan_image_fails`
* `Verif.Props.second_document_fails`
* `Verif.Props.set_page_early_drawing_fails`
* `Verif.Props.set_page_empty_page_fails`
* `Verif.Props.split_no_panic_fails`
* `Verif.Props.toUnicode_codespace_fails`
* `Verif.Props.top_level_prev_fails`
* `Verif.Props.two_roles_fails`
* `Verif.Props.unknown_anchor_fails`

## propext, Classical.choice, Quot.sound

* `Verif.Caller.crop_changed_fails`
* `Verif.Caller.given_values_are_written`
* `Verif.Caller.mask_twice_fails`
* `Verif.Caller.slice_changed_fails`
* `Verif.Caller.slice_twice_fails`
* `Verif.Caller.transparency_changed_fails`
* `Verif.Caller.variables_kept`
* `Verif.Embed.drawn_char_outline`
* `Verif.Embed.drawn_glyph_outline`
* `Verif.Embed.embedded_directory`
* `Verif.Embed.embedded_loca`
* `Verif.Embed.embedding_succeeds`
* `Verif.Embed.nested_component_missing_fails`
* `Verif.Embed.other_glyph_empty`
* `Verif.Embed.reachable_embedded`
* `Verif.PNG.empty_chunk_loses_data_fails`
* `Verif.PNG.grey_alpha_split_lossless`
* `Verif.PNG.png_data_collected`
* `Verif.PNG.png_taken_only`
* `Verif.PNG.rgba_split_lossless`
* `Verif.Pool.documents_at_once`
* `Verif.Props.accepted_iff`
* `Verif.Props.add_color_space`
* `Verif.Props.add_page_cursor`
* `Verif.Props.added_linked`
* `Verif.Props.aligned_underline_fails`
* `Verif.Props.arabic_joining`
* `Verif.Props.arabic_reads`
* `Verif.Props.bookmarks_in_file`
* `Verif.Props.bookmarks_other_height_fails`
* `Verif.Props.call_fails_exactly`
* `Verif.Props.call_panics`
* `Verif.Props.call_transparency_used`
* `Verif.Props.cell_alignment`
* `Verif.Props.cell_as_built`
* `Verif.Props.cell_decorations`
* `Verif.Props.cell_transparency_in_effect`
* `Verif.Props.cells_by_width`
* `Verif.Props.cells_fit`
* `Verif.Props.char_glyph_is_fonts`
* `Verif.Props.char_glyph_stable`
* `Verif.Props.char_map_consistent`
* `Verif.Props.cmap_lookup_bmp`
* `Verif.Props.cmap_lookup_bmp_iff`
* `Verif.Props.cmap_lookup_supplementary`
* `Verif.Props.colour_recovered`
* `Verif.Props.compile_appends_all_pages`
* `Verif.Props.compile_keeps`
* `Verif.Props.compile_twice_fails`
* `Verif.Props.compiled_twice_file_fails`
* `Verif.Props.complete_font_taken`
* `Verif.Props.contains_drawn`
* `Verif.Props.contains_glyph`
* `Verif.Props.contains_not`
* `Verif.Props.creation_date_fails`
* `Verif.Props.creation_date_in_file`
* `Verif.Props.creation_date_instant`
* `Verif.Props.creation_date_reads`
* `Verif.Props.crop_not_converted_fails`
* `Verif.Props.cursor_after_br_fails`
* `Verif.Props.cursor_round_trip`
* `Verif.Props.custom_factor_wins`
* `Verif.Props.default_keeps_text`
* `Verif.Props.default_margins`
* `Verif.Props.definition_describes`
* `Verif.Props.definition_file`
* `Verif.Props.definition_font`
* `Verif.Props.definition_made_iff`
* `Verif.Props.definition_measures`
* `Verif.Props.definition_width_array`
* `Verif.Props.definition_widths`
* `Verif.Props.descriptor_of_callers_font`
* `Verif.Props.drawing_height`
* `Verif.Props.drawing_resolves`
* `Verif.Props.drawn_advance_bound`
* `Verif.Props.drawn_advance_exact`
* `Verif.Props.drawn_chars_in_map`
* `Verif.Props.drawn_image_is_the_one`
* `Verif.Props.drawn_masked_image_is_the_one`
* `Verif.Props.empty_polygon_malformed_fails`
* `Verif.Props.encoding_reads`
* `Verif.Props.encoding_reads_fails`
* `Verif.Props.encrypt_reference`
* `Verif.Props.escape_injective`
* `Verif.Props.escape_roundtrip`
* `Verif.Props.every_object_reads_back`
* `Verif.Props.extracted_text`
* `Verif.Props.failed_call_keeps`
* `Verif.Props.failed_call_unseen`
* `Verif.Props.figures_drawn`
* `Verif.Props.figures_drawn_but_fill`
* `Verif.Props.file_begins`
* `Verif.Props.file_opens_with_owner_password`
* `Verif.Props.file_opens_with_user_password`
* `Verif.Props.file_shows_what_was_drawn`
* `Verif.Props.fill_changes_only`
* `Verif.Props.filled_shown`
* `Verif.Props.filled_substitute_fails`
* `Verif.Props.font_in_file`
* `Verif.Props.font_name_denotes`
* `Verif.Props.fonts_are_embedded`
* `Verif.Props.functions_stay`
* `Verif.Props.glyph_number_fails`
* `Verif.Props.harf_unique`
* `Verif.Props.header_on_every_page`
* `Verif.Props.holder_works`
* `Verif.Props.hyphenated_lines_fit`
* `Verif.Props.image_converted`
* `Verif.Props.image_in_file`
* `Verif.Props.image_placed`
* `Verif.Props.image_size_remembered_fails`
* `Verif.Props.image_sizes`
* `Verif.Props.image_transparency_and_mask`
* `Verif.Props.import_gap_fails`
* `Verif.Props.imported_names`
* `Verif.Props.imported_objects`
* `Verif.Props.imported_pages`
* `Verif.Props.imported_protected_fails`
* `Verif.Props.imported_size_fails`
* `Verif.Props.incomplete_font_refused`
* `Verif.Props.incomplete_font_refused_fails`
* `Verif.Props.info_dictionary_roundtrip`
* `Verif.Props.info_in_file`
* `Verif.Props.info_text_roundtrip`
* `Verif.Props.info_text_roundtrip_fails`
* `Verif.Props.is_fit_answers`
* `Verif.Props.is_fit_newline_answers`
* `Verif.Props.join_ignores_rectangle_fails`
* `Verif.Props.join_loses_colour_fails`
* `Verif.Props.join_loses_transparency_fails`
* `Verif.Props.joining_invisible`
* `Verif.Props.jpeg_mask_empty_fails`
* `Verif.Props.justify_falls_back`
* `Verif.Props.justify_not_exact_fails`
* `Verif.Props.justify_spreads`
* `Verif.Props.kern_subtables_fails`
* `Verif.Props.kerning_in_file`
* `Verif.Props.key_material_agrees_iff`
* `Verif.Props.layout_in_file`
* `Verif.Props.level_always_writable`
* `Verif.Props.line_advances_by_measure`
* `Verif.Props.line_type_names`
* `Verif.Props.links_in_file`
* `Verif.Props.links_on_pages`
* `Verif.Props.links_other_height_fails`
* `Verif.Props.map_file_encoding`
* `Verif.Props.map_file_reads`
* `Verif.Props.margins_round_trip`
* `Verif.Props.masked_mirrored_turned_fails`
* `Verif.Props.measure_append`
* `Verif.Props.measured_height`
* `Verif.Props.measured_width`
* `Verif.Props.measuring_panics`
* `Verif.Props.multi_cell_draws`
* `Verif.Props.multi_cell_empty_line_fails`
* `Verif.Props.multi_cell_float_bottom_fails`
* `Verif.Props.multi_cell_loses_fails`
* `Verif.Props.multi_cell_option_draws`
* `Verif.Props.multi_cell_option_returns`
* `Verif.Props.multi_cell_overflows_fails`
* `Verif.Props.multi_cell_returns`
* `Verif.Props.multi_cell_vertical_fails`
* `Verif.Props.natural_size`
* `Verif.Props.new_transparency_takes`
* `Verif.Props.new_y_any_unit`
* `Verif.Props.new_y_no_offset_points`
* `Verif.Props.new_y_points`
* `Verif.Props.new_y_unit_fails`
* `Verif.Props.new_y_without_page`
* `Verif.Props.next_id_is_used`
* `Verif.Props.no_creation_date`
* `Verif.Props.no_dangling`
* `Verif.Props.object_numbers_gapless`
* `Verif.Props.object_numbers_stable`
* `Verif.Props.offset_inside`
* `Verif.Props.one_object_per_image`
* `Verif.Props.one_state_per_setting`
* `Verif.Props.opaque_mask_empty_fails`
* `Verif.Props.option_lines_wrap`
* `Verif.Props.option_size_custom_unit_fails`
* `Verif.Props.outline_list`
* `Verif.Props.outline_neighbours`
* `Verif.Props.outline_parent_fails`
* `Verif.Props.owner_password_opens`
* `Verif.Props.page_boxes`
* `Verif.Props.page_bytes_complete`
* `Verif.Props.page_bytes_paint`
* `Verif.Props.page_bytes_read`
* `Verif.Props.page_complete`
* `Verif.Props.page_content_changes`
* `Verif.Props.page_incomplete`
* `Verif.Props.page_option_factor_fails`
* `Verif.Props.page_resources`
* `Verif.Props.page_starts_at_margins`
* `Verif.Props.page_tree_first_compile`
* `Verif.Props.pages_of_life`
* `Verif.Props.pages_show_what_was_drawn`
* `Verif.Props.palette_opacity_lost_fails`
* `Verif.Props.pen_moves_by_measure`
* `Verif.Props.permission_bits`
* `Verif.Props.permission_bits_exported`
* `Verif.Props.permission_high_bits_fails`
* `Verif.Props.placeholder_filled`
* `Verif.Props.placeholder_font_fails`
* `Verif.Props.placeholder_refill_fails`
* `Verif.Props.placeholder_underline_fails`
* `Verif.Props.placeholder_unit_fails`
* `Verif.Props.plain_joins_agree`
* `Verif.Props.plain_stream`
* `Verif.Props.program_figures`
* `Verif.Props.program_files`
* `Verif.Props.program_pages`
* `Verif.Props.program_pictures`
* `Verif.Props.program_resources`
* `Verif.Props.program_runs`
* `Verif.Props.protected_stream_roundtrip`
* `Verif.Props.protected_uri_roundtrip`
* `Verif.Props.read_after_close`
* `Verif.Props.read_chunks_deliver_file`
* `Verif.Props.rect_round_trip`
* `Verif.Props.rectangle_drawn`
* `Verif.Props.rectangle_goes_round`
* `Verif.Props.rectangle_inside`
* `Verif.Props.rectangle_overlap_fails`
* `Verif.Props.rectangle_round`
* `Verif.Props.references_resolve`
* `Verif.Props.resource_names_denote`
* `Verif.Props.resources_in_file`
* `Verif.Props.restricted_refused_fails`
* `Verif.Props.rotate_reset_restores`
* `Verif.Props.rotate_turns_about`
* `Verif.Props.rotation_turns`
* `Verif.Props.second_page_count_fails`
* `Verif.Props.setPage_height_fails`
* `Verif.Props.set_color_space_denotes`
* `Verif.Props.set_page_selects`
* `Verif.Props.set_transparency_selects`
* `Verif.Props.settings_since_start`
* `Verif.Props.shape_leaves_state`
* `Verif.Props.spacing_measured_short_fails`
* `Verif.Props.split_keeps_words`
* `Verif.Props.split_lossless`
* `Verif.Props.split_separator_terminates`
* `Verif.Props.split_terminates_iff`
* `Verif.Props.style_words_fails`
* `Verif.Props.styled_row_copied_fails`
* `Verif.Props.substitute_chain_fails`
* `Verif.Props.table_as_built`
* `Verif.Props.table_black_fails`
* `Verif.Props.table_border_fails`
* `Verif.Props.table_cells`
* `Verif.Props.table_draws`
* `Verif.Props.table_lines_fit`
* `Verif.Props.table_long_row`
* `Verif.Props.table_tiles`
* `Verif.Props.template_moves`
* `Verif.Props.template_named_like_image_fails`
* `Verif.Props.text_colour_fills_fails`
* `Verif.Props.text_drawn_in_colour`
* `Verif.Props.text_drawn_in_style`
* `Verif.Props.text_extracted`
* `Verif.Props.text_in_callers_fonts`
* `Verif.Props.text_look_in_file`
* `Verif.Props.text_place_in_file`
* `Verif.Props.text_tint_in_file`
* `Verif.Props.text_underline_fails`
* `Verif.Props.toUnicode_maps`
* `Verif.Props.toUnicode_supplementary_fails`
* `Verif.Props.top_level_iff`
* `Verif.Props.trailer_consistent`
* `Verif.Props.transparency_in_effect`
* `Verif.Props.trim_without_size_fails`
* `Verif.Props.underline_letter`
* `Verif.Props.unit_values`
* `Verif.Props.units_linear`
* `Verif.Props.units_monotone`
* `Verif.Props.units_round_trip`
* `Verif.Props.used_object_as_new`
* `Verif.Props.used_object_as_new_fails`
* `Verif.Props.user_password_opens`
* `Verif.Props.wrapped_by_width`
* `Verif.Props.wrapped_lines_fit`
* `Verif.Props.wrapped_lines_fit_fails`
* `Verif.Props.writeTo_count`
* `Verif.Props.writeTo_error_reported_fails`
* `Verif.Props.writeTo_never_reports`
* `Verif.Props.writeTo_prefix`
* `Verif.Props.written_again`
* `Verif.Props.written_again_fails`
* `Verif.Props.written_number_near`
* `Verif.Props.xobjectGroup_not_encrypted_fails`
* `Verif.Props.xref_entry_width_iff`
* `Verif.Props.xref_locates_every_object`

## propext, Quot.sound

* `Verif.Embed.i16_roundtrip`
* `Verif.Embed.u16_roundtrip`
* `Verif.Embed.u16_truncates`
* `Verif.Embed.u32_roundtrip`
* `Verif.Props.addChars_own`
* `Verif.Props.arabic_hamza_fails`
* `Verif.Props.arabic_jeh_fails`
* `Verif.Props.chars_agree`
* `Verif.Props.children_linked`
* `Verif.Props.container_isolated`
* `Verif.Props.default_level`
* `Verif.Props.drawn_char_missing_fails`
* `Verif.Props.font_style_letters`
* `Verif.Props.holder_shows_kind`
* `Verif.Props.holder_shows_own`
* `Verif.Props.image_shows_file`
* `Verif.Props.import_stops`
* `Verif.Props.info_text_ambiguous_fails`
* `Verif.Props.justified_paragraph_end_fails`
* `Verif.Props.level_set`
* `Verif.Props.level_too_big_fails`
* `Verif.Props.loaded_fresh`
* `Verif.Props.one_pixel_fails`
* `Verif.Props.paint_letters`
* `Verif.Props.parse_frame`
* `Verif.Props.rc4_invertible`
* `Verif.Props.rectangle_rejects`
* `Verif.Props.setProtection_succeeds`
* `Verif.Props.set_color_space_ok`
* `Verif.Props.set_font_by_letters`
* `Verif.Props.set_font_lookup`
* `Verif.Props.split_is_wrapping`
* `Verif.Props.split_lines_fit`
* `Verif.Props.split_newlines_honoured`
* `Verif.Props.split_no_panic`
* `Verif.Props.split_only_removes`
* `Verif.Props.split_separator_terminates_fails`
* `Verif.Props.split_terminates_fails`
* `Verif.Props.stored_once`
* `Verif.Props.top_level_links`
