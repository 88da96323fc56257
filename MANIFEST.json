{
 "claims": [
  {
   "property": "C01",
   "status": "proved",
   "theorems": [
    "Verif.Props.xref_locates_every_object",
    "Verif.Props.xref_entry_width_iff"
   ],
   "note": ""
  },
  {
   "property": "C02",
   "status": "proved",
   "theorems": [
    "Verif.Props.trailer_consistent",
    "Verif.Props.file_begins",
    "Verif.Props.encrypt_reference"
   ],
   "note": ""
  },
  {
   "property": "C03",
   "status": "proved",
   "theorems": [
    "Verif.Props.object_numbers_stable",
    "Verif.Props.object_numbers_gapless",
    "Verif.Props.next_id_is_used"
   ],
   "note": ""
  },
  {
   "property": "C04",
   "status": "proved",
   "theorems": [
    "Verif.Props.no_dangling",
    "Verif.Props.indexed_mask_fails",
    "Verif.Props.early_anchor_fails",
    "Verif.Props.early_outline_fails",
    "Verif.Props.resource_names_denote",
    "Verif.Props.page_resources"
   ],
   "note": "Proved as stated, for all inputs in the quantifier. The conditions and exceptions written in the statement are necessary: the claim without them is refuted by indexed_mask_fails, early_anchor_fails, early_outline_fails."
  },
  {
   "property": "C05",
   "status": "proved",
   "theorems": [
    "Verif.Props.page_tree_first_compile"
   ],
   "note": ""
  },
  {
   "property": "C06",
   "status": "proved",
   "theorems": [
    "Verif.Props.compile_appends_all_pages",
    "Verif.Props.compile_twice_fails",
    "Verif.Props.compile_keeps"
   ],
   "note": "Proved as stated. The repeatability a user would expect is false of the code: compile_twice_fails refutes it for every document with a page, whatever the history before."
  },
  {
   "property": "C07",
   "status": "proved",
   "theorems": [
    "Verif.Props.pages_show_what_was_drawn",
    "Verif.Props.page_content_changes"
   ],
   "note": ""
  },
  {
   "property": "C08",
   "status": "proved",
   "theorems": [
    "Verif.Props.set_page_selects",
    "Verif.Props.set_page_empty_page_fails",
    "Verif.Props.set_page_early_drawing_fails"
   ],
   "note": "Proved as stated, for all inputs in the quantifier. The conditions and exceptions written in the statement are necessary: the claim without them is refuted by set_page_empty_page_fails, set_page_early_drawing_fails."
  },
  {
   "property": "C09",
   "status": "proved",
   "theorems": [
    "Verif.Props.read_chunks_deliver_file",
    "Verif.Props.read_after_close"
   ],
   "note": ""
  },
  {
   "property": "C10",
   "status": "proved",
   "theorems": [
    "Verif.Props.writeTo_count",
    "Verif.Props.writeTo_prefix",
    "Verif.Props.writeTo_error_reported_fails",
    "Verif.Props.writeTo_never_reports"
   ],
   "note": "Proved as stated. The expectation that a failing destination is reported is false of the code: writeTo_never_reports (every document and destination) and writeTo_error_reported_fails."
  },
  {
   "property": "C11",
   "status": "proved",
   "theorems": [
    "Verif.Props.split_is_wrapping",
    "Verif.Props.split_lossless",
    "Verif.Props.split_newlines_honoured",
    "Verif.Props.split_lines_fit"
   ],
   "note": ""
  },
  {
   "property": "C12",
   "status": "proved",
   "theorems": [
    "Verif.Props.split_terminates_iff",
    "Verif.Props.split_terminates_fails",
    "Verif.Props.split_separator_terminates",
    "Verif.Props.split_separator_terminates_fails"
   ],
   "note": "Proved as stated, for all inputs in the quantifier. The conditions and exceptions written in the statement are necessary: the claim without them is refuted by split_terminates_fails, split_separator_terminates_fails."
  },
  {
   "property": "C13",
   "status": "proved",
   "theorems": [
    "Verif.Props.split_is_wrapping",
    "Verif.Props.split_keeps_words",
    "Verif.Props.split_only_removes",
    "Verif.Props.split_no_panic",
    "Verif.Props.split_no_panic_fails",
    "Verif.Props.split_separator_terminates"
   ],
   "note": "Proved as stated, for all inputs in the quantifier. The conditions and exceptions written in the statement are necessary: the claim without them is refuted by split_no_panic_fails."
  },
  {
   "property": "C14",
   "status": "proved",
   "theorems": [
    "Verif.Props.outline_list",
    "Verif.Props.outline_neighbours",
    "Verif.Props.outline_parent_fails"
   ],
   "note": "Proved as stated. /Parent is wrong in every document (outline_parent_fails)."
  },
  {
   "property": "C15",
   "status": "proved",
   "theorems": [
    "Verif.Props.children_linked",
    "Verif.Props.top_level_links",
    "Verif.Props.parse_frame",
    "Verif.Props.added_linked",
    "Verif.Props.top_level_iff",
    "Verif.Props.top_level_prev_fails"
   ],
   "note": "Proved as stated, for all inputs in the quantifier. The conditions and exceptions written in the statement are necessary: the claim without them is refuted by top_level_prev_fails."
  },
  {
   "property": "C16",
   "status": "proved",
   "theorems": [
    "Verif.Props.escape_roundtrip",
    "Verif.Props.escape_injective",
    "Verif.Props.protected_uri_roundtrip"
   ],
   "note": ""
  },
  {
   "property": "C17",
   "status": "proved",
   "theorems": [
    "Verif.Props.info_text_roundtrip",
    "Verif.Props.info_dictionary_roundtrip",
    "Verif.Props.info_text_roundtrip_fails",
    "Verif.Props.info_text_ambiguous_fails",
    "Verif.Props.info_in_file"
   ],
   "note": "Proved as stated, for all inputs in the quantifier. The conditions and exceptions written in the statement are necessary: the claim without them is refuted by info_text_roundtrip_fails, info_text_ambiguous_fails."
  },
  {
   "property": "C18",
   "status": "proved",
   "theorems": [
    "Verif.Props.rc4_invertible",
    "Verif.Props.objectkey_standard",
    "Verif.Props.protected_stream_roundtrip",
    "Verif.Props.plain_stream",
    "Verif.Props.xobjectGroup_not_encrypted_fails",
    "Verif.Props.protected_uri_roundtrip"
   ],
   "note": "Proved as stated, for all inputs in the quantifier. The conditions and exceptions written in the statement are necessary: the claim without them is refuted by xobjectGroup_not_encrypted_fails."
  },
  {
   "property": "C19",
   "status": "proved",
   "theorems": [
    "Verif.Props.user_password_opens",
    "Verif.Props.owner_password_opens",
    "Verif.Props.setProtection_succeeds",
    "Verif.Props.key_material_agrees_iff"
   ],
   "note": ""
  },
  {
   "property": "C20",
   "status": "proved",
   "theorems": [
    "Verif.Props.permission_bits",
    "Verif.Props.permission_bits_exported",
    "Verif.Props.permission_high_bits_fails"
   ],
   "note": "Proved as stated, for all inputs in the quantifier. The conditions and exceptions written in the statement are necessary: the claim without them is refuted by permission_high_bits_fails."
  },
  {
   "property": "C21",
   "status": "proved",
   "theorems": [
    "Verif.Props.units_round_trip",
    "Verif.Props.units_linear",
    "Verif.Props.units_monotone",
    "Verif.Props.custom_factor_wins",
    "Verif.Props.unit_values",
    "Verif.Props.rect_round_trip",
    "Verif.Props.page_option_factor_fails",
    "Verif.Props.margins_round_trip",
    "Verif.Props.page_starts_at_margins",
    "Verif.Props.default_margins",
    "Verif.Props.cursor_round_trip"
   ],
   "note": "Proved as stated, for all inputs in the quantifier. The conditions and exceptions written in the statement are necessary: the claim without them is refuted by page_option_factor_fails."
  },
  {
   "property": "C22",
   "status": "proved",
   "theorems": [
    "Verif.Props.new_y_no_offset_points",
    "Verif.Props.new_y_points",
    "Verif.Props.new_y_any_unit",
    "Verif.Props.new_y_unit_fails",
    "Verif.Props.new_y_without_page",
    "Verif.Props.add_page_cursor"
   ],
   "note": "Proved as stated, for all inputs in the quantifier. The conditions and exceptions written in the statement are necessary: the claim without them is refuted by new_y_unit_fails."
  },
  {
   "property": "C23",
   "status": "proved",
   "theorems": [
    "Verif.Props.set_font_lookup",
    "Verif.Props.font_name_denotes",
    "Verif.Props.font_resource_fails"
   ],
   "note": "Proved as stated, for all inputs in the quantifier. The conditions and exceptions written in the statement are necessary: the claim without them is refuted by font_resource_fails."
  },
  {
   "property": "C24",
   "status": "proved",
   "theorems": [
    "Verif.Props.char_glyph_stable",
    "Verif.Props.char_map_consistent",
    "Verif.Props.char_glyph_is_fonts",
    "Verif.Props.drawn_chars_in_map",
    "Verif.Props.drawn_char_missing_fails"
   ],
   "note": "Proved as stated, for all inputs in the quantifier. The conditions and exceptions written in the statement are necessary: the claim without them is refuted by drawn_char_missing_fails."
  },
  {
   "property": "C25",
   "status": "proved",
   "theorems": [
    "Verif.Props.toUnicode_maps",
    "Verif.Props.extracted_text",
    "Verif.Props.toUnicode_supplementary_fails",
    "Verif.Props.toUnicode_codespace_fails"
   ],
   "note": "Proved as stated, for all inputs in the quantifier. The conditions and exceptions written in the statement are necessary: the claim without them is refuted by toUnicode_supplementary_fails, toUnicode_codespace_fails."
  },
  {
   "property": "C26",
   "status": "proved",
   "theorems": [
    "Verif.Props.cmap_lookup_bmp",
    "Verif.Props.cmap_lookup_bmp_iff",
    "Verif.Props.cmap_lookup_supplementary",
    "Verif.Props.cmap_lookup_panics_fails",
    "Verif.Props.chars_agree"
   ],
   "note": "Proved as stated, for all inputs in the quantifier. The conditions and exceptions written in the statement are necessary: the claim without them is refuted by cmap_lookup_panics_fails."
  },
  {
   "property": "C27",
   "status": "proved",
   "theorems": [
    "Verif.Embed.drawn_glyph_outline",
    "Verif.Embed.other_glyph_empty",
    "Verif.Embed.embedded_loca",
    "Verif.Embed.drawn_char_outline",
    "Verif.Embed.embedding_succeeds"
   ],
   "note": ""
  },
  {
   "property": "C28",
   "status": "proved",
   "theorems": [
    "Verif.Embed.reachable_embedded",
    "Verif.Embed.nested_component_missing_fails"
   ],
   "note": "Proved as stated, for all inputs in the quantifier. The conditions and exceptions written in the statement are necessary: the claim without them is refuted by nested_component_missing_fails."
  },
  {
   "property": "C29",
   "status": "proved",
   "theorems": [
    "Verif.Embed.embedded_directory"
   ],
   "note": ""
  },
  {
   "property": "C30",
   "status": "proved",
   "theorems": [
    "Verif.Embed.u16_roundtrip",
    "Verif.Embed.u32_roundtrip",
    "Verif.Embed.u16_truncates",
    "Verif.Embed.i16_roundtrip"
   ],
   "note": ""
  },
  {
   "property": "C31",
   "status": "proved",
   "theorems": [
    "Verif.PNG.rgba_split_lossless",
    "Verif.PNG.grey_alpha_split_lossless"
   ],
   "note": ""
  },
  {
   "property": "C32",
   "status": "proved",
   "theorems": [
    "Verif.PNG.png_data_collected",
    "Verif.PNG.png_taken_only",
    "Verif.PNG.empty_chunk_loses_data_fails"
   ],
   "note": "Proved as stated, for all inputs in the quantifier. The conditions and exceptions written in the statement are necessary: the claim without them is refuted by empty_chunk_loses_data_fails."
  },
  {
   "property": "C33",
   "status": "proved",
   "theorems": [
    "Verif.Props.page_complete",
    "Verif.Props.page_incomplete",
    "Verif.Props.empty_polygon_malformed_fails",
    "Verif.Props.shape_leaves_state",
    "Verif.Props.page_bytes_complete"
   ],
   "note": "Proved as stated, for all inputs in the quantifier. The conditions and exceptions written in the statement are necessary: the claim without them is refuted by empty_polygon_malformed_fails."
  },
  {
   "property": "C34",
   "status": "proved",
   "theorems": [
    "Verif.Props.text_drawn_in_style",
    "Verif.Props.text_drawn_in_colour",
    "Verif.Props.joining_invisible",
    "Verif.Props.plain_joins_agree",
    "Verif.Props.join_loses_colour_fails",
    "Verif.Props.join_loses_transparency_fails",
    "Verif.Props.join_ignores_rectangle_fails"
   ],
   "note": "Proved as stated, for all inputs in the quantifier. The conditions and exceptions written in the statement are necessary: the claim without them is refuted by join_loses_colour_fails, join_loses_transparency_fails, join_ignores_rectangle_fails."
  },
  {
   "property": "C35",
   "status": "proved",
   "theorems": [
    "Verif.Props.one_object_per_image",
    "Verif.Props.drawn_image_is_the_one",
    "Verif.Props.drawn_masked_image_is_the_one",
    "Verif.Props.orphan_image_fails",
    "Verif.Props.mask_then_drawn_fails",
    "Verif.Props.masked_then_drawn_fails"
   ],
   "note": "Proved as stated, for all inputs in the quantifier. The conditions and exceptions written in the statement are necessary: the claim without them is refuted by orphan_image_fails, mask_then_drawn_fails, masked_then_drawn_fails."
  },
  {
   "property": "C36",
   "status": "proved",
   "theorems": [
    "Verif.Props.resource_names_denote",
    "Verif.Props.one_state_per_setting",
    "Verif.Props.set_transparency_selects",
    "Verif.Props.call_transparency_used",
    "Verif.Props.transparency_in_effect",
    "Verif.Props.cell_transparency_in_effect",
    "Verif.Props.image_transparency_and_mask",
    "Verif.Props.opaque_collides_fails",
    "Verif.Props.blend_opaque_fails"
   ],
   "note": "Proved as stated, for all inputs in the quantifier. The conditions and exceptions written in the statement are necessary: the claim without them is refuted by opaque_collides_fails and blend_opaque_fails."
  },
  {
   "property": "C37",
   "status": "proved",
   "theorems": [
    "Verif.Props.add_color_space",
    "Verif.Props.set_color_space_ok",
    "Verif.Props.set_color_space_denotes",
    "Verif.Props.duplicate_left_fails"
   ],
   "note": "Proved as stated, for all inputs in the quantifier. The conditions and exceptions written in the statement are necessary: the claim without them is refuted by duplicate_left_fails."
  },
  {
   "property": "C38",
   "status": "proved",
   "theorems": [
    "Verif.Props.links_on_pages",
    "Verif.Props.link_destination",
    "Verif.Props.link_without_page",
    "Verif.Props.unknown_anchor_fails"
   ],
   "note": "Proved as stated, for all inputs in the quantifier. The conditions and exceptions written in the statement are necessary: the claim without them is refuted by unknown_anchor_fails."
  },
  {
   "property": "C39",
   "status": "proved",
   "theorems": [
    "Verif.Props.line_advances_by_measure",
    "Verif.Props.drawn_advance_exact",
    "Verif.Props.drawn_advance_bound",
    "Verif.Props.measure_append",
    "Verif.Props.spacing_measured_short_fails",
    "Verif.Props.cursor_after_br_fails"
   ],
   "note": "Proved as stated, for all inputs in the quantifier. The conditions and exceptions written in the statement are necessary: the claim without them is refuted by spacing_measured_short_fails, cursor_after_br_fails."
  },
  {
   "property": "C40",
   "status": "proved",
   "theorems": [
    "Verif.Props.cell_alignment",
    "Verif.Props.justify_spreads",
    "Verif.Props.justify_falls_back",
    "Verif.Props.justify_not_exact_fails"
   ],
   "note": "Proved as stated, for all inputs in the quantifier. The conditions and exceptions written in the statement are necessary: the claim without them is refuted by justify_not_exact_fails."
  },
  {
   "property": "C41",
   "status": "proved",
   "theorems": [
    "Verif.Props.multi_cell_draws",
    "Verif.Props.is_fit_answers",
    "Verif.Props.is_fit_newline_answers",
    "Verif.Props.multi_cell_option_draws",
    "Verif.Props.option_lines_wrap",
    "Verif.Props.multi_cell_loses_fails",
    "Verif.Props.multi_cell_overflows_fails",
    "Verif.Props.multi_cell_empty_line_fails",
    "Verif.Props.multi_cell_float_bottom_fails",
    "Verif.Props.justified_paragraph_end_fails",
    "Verif.Props.multi_cell_vertical_fails"
   ],
   "note": "Proved as stated, for all inputs in the quantifier. The conditions and exceptions written in the statement are necessary: the claim without them is refuted by multi_cell_loses_fails, multi_cell_overflows_fails, multi_cell_empty_line_fails, multi_cell_float_bottom_fails, multi_cell_vertical_fails, justified_paragraph_end_fails."
  },
  {
   "property": "C42",
   "status": "proved",
   "theorems": [
    "Verif.Props.table_cells",
    "Verif.Props.table_long_row",
    "Verif.Props.table_tiles",
    "Verif.Props.table_draws",
    "Verif.Props.table_border_fails",
    "Verif.Props.table_black_fails"
   ],
   "note": "Proved as stated, for all inputs in the quantifier. The conditions and exceptions written in the statement are necessary: the claim without them is refuted by table_border_fails, table_black_fails."
  },
  {
   "property": "C43",
   "status": "proved",
   "theorems": [
    "Verif.Props.arabic_reads",
    "Verif.Props.arabic_joining",
    "Verif.Props.harf_unique",
    "Verif.Props.arabic_leading_marks_fails",
    "Verif.Props.arabic_jeh_fails",
    "Verif.Props.arabic_hamza_fails",
    "Verif.Props.arabic_digits_fails"
   ],
   "note": "Proved as stated, for all inputs in the quantifier. The conditions and exceptions written in the statement are necessary: the claim without them is refuted by arabic_leading_marks_fails, arabic_jeh_fails, arabic_hamza_fails, arabic_digits_fails."
  },
  {
   "property": "C44",
   "status": "proved",
   "theorems": [
    "Verif.Props.container_isolated",
    "Verif.Props.container_unchanged",
    "Verif.Props.loaded_fresh",
    "Verif.Props.addChars_own"
   ],
   "note": ""
  },
  {
   "property": "C45",
   "status": "proved",
   "theorems": [
    "Verif.Props.placeholder_filled",
    "Verif.Props.fill_changes_only",
    "Verif.Props.offset_inside",
    "Verif.Props.placeholder_unit_fails",
    "Verif.Props.placeholder_font_fails",
    "Verif.Props.placeholder_refill_fails",
    "Verif.Props.placeholder_underline_fails"
   ],
   "note": "Proved as stated, for all inputs in the quantifier. The conditions and exceptions written in the statement are necessary: the claim without them is refuted by placeholder_unit_fails, placeholder_font_fails, placeholder_refill_fails, placeholder_underline_fails."
  },
  {
   "property": "C46",
   "status": "proved",
   "theorems": [
    "Verif.Props.rectangle_rejects",
    "Verif.Props.rectangle_inside",
    "Verif.Props.rectangle_round",
    "Verif.Props.rectangle_goes_round",
    "Verif.Props.rectangle_overlap_fails",
    "Verif.Props.rectangle_drawn"
   ],
   "note": "Proved as stated, for all inputs in the quantifier. The conditions and exceptions written in the statement are necessary: the claim without them is refuted by rectangle_overlap_fails."
  },
  {
   "property": "C47",
   "status": "proved",
   "theorems": [
    "Verif.Props.level_set",
    "Verif.Props.level_always_writable",
    "Verif.Props.levels",
    "Verif.Props.default_level",
    "Verif.Props.compressed_iff",
    "Verif.Props.level_too_big_fails",
    "Verif.Props.settings_since_start"
   ],
   "note": "Proved as stated, for all inputs in the quantifier. The conditions and exceptions written in the statement are necessary: the claim without them is refuted by level_too_big_fails."
  },
  {
   "property": "C48",
   "status": "proved",
   "theorems": [
    "Verif.Props.figures_drawn",
    "Verif.Props.figures_drawn_but_fill",
    "Verif.Props.setPage_height_fails",
    "Verif.Props.text_colour_fills_fails"
   ],
   "note": "Proved as stated (figures_drawn; with coloured text figures_drawn_but_fill). The conditions are needed: setPage_height_fails, text_colour_fills_fails, empty_polygon_malformed_fails (C33), masked_mirrored_turned_fails (C50)."
  },
  {
   "property": "C49",
   "status": "proved",
   "theorems": [
    "Verif.Props.rotation_turns",
    "Verif.Props.rotate_turns_about",
    "Verif.Props.rotate_reset_restores"
   ],
   "note": ""
  },
  {
   "property": "C50",
   "status": "proved",
   "theorems": [
    "Verif.Props.image_placed",
    "Verif.Props.masked_mirrored_turned_fails"
   ],
   "note": "Proved as stated for images without a mask; masked images are covered by C48 except when mirrored or cropped and turned, where the claim is false (masked_mirrored_turned_fails)."
  },
  {
   "property": "C51",
   "status": "proved",
   "theorems": [
    "Verif.Props.image_sizes",
    "Verif.Props.natural_size",
    "Verif.Props.image_converted",
    "Verif.Props.image_size_remembered_fails",
    "Verif.Props.crop_not_converted_fails",
    "Verif.Props.one_pixel_fails"
   ],
   "note": "Proved as stated, for all inputs in the quantifier. The conditions and exceptions written in the statement are necessary: the claim without them is refuted by image_size_remembered_fails, crop_not_converted_fails, one_pixel_fails."
  },
  {
   "property": "C52",
   "status": "proved",
   "theorems": [
    "Verif.Props.cell_decorations",
    "Verif.Props.text_underline_fails",
    "Verif.Props.aligned_underline_fails"
   ],
   "note": "Proved as stated for cells with a rectangle; the underline of Text and of aligned text is elsewhere (text_underline_fails, aligned_underline_fails)."
  },
  {
   "property": "C53",
   "status": "proved",
   "theorems": [
    "Verif.Props.page_bytes_read",
    "Verif.Props.page_bytes_paint",
    "Verif.Props.page_bytes_complete",
    "Verif.Props.colour_recovered",
    "Verif.Props.template_named_like_image_fails",
    "Verif.Props.glyph_number_fails"
   ],
   "note": "Proved as stated, over exact rational coordinates (float64 rounding before printing is outside the model). The two conditions are needed: template_named_like_image_fails, glyph_number_fails."
  },
  {
   "property": "C54",
   "status": "proved",
   "theorems": [
    "Verif.Props.written_again",
    "Verif.Props.template_moves",
    "Verif.Props.written_again_fails"
   ],
   "note": "Proved as stated; with a template it fails (written_again_fails), and template_moves says by how much."
  },
  {
   "property": "C55",
   "status": "proved",
   "theorems": [
    "Verif.Props.compiled_twice_file_fails",
    "Verif.Props.references_resolve",
    "Verif.Props.resources_in_file",
    "Verif.Props.drawing_resolves",
    "Verif.Props.font_in_file",
    "Verif.Props.image_in_file",
    "Verif.Props.every_object_reads_back",
    "Verif.Props.written_number_near"
   ],
   "note": "Proved as stated (every_object_reads_back, references_resolve, resources_in_file, drawing_resolves, font_in_file, image_in_file). Writing a second time makes a malformed page dictionary (compiled_twice_file_fails)."
  },
  {
   "property": "C56",
   "status": "proved",
   "theorems": [
    "Verif.Props.file_shows_what_was_drawn",
    "Verif.Props.file_opens_with_user_password",
    "Verif.Props.file_opens_with_owner_password"
   ],
   "note": "Proved as stated; zlib and MD5 are parameters of the model (inflate undoes deflate; MD5 sums have 16 bytes)."
  },
  {
   "property": "C57",
   "status": "proved",
   "theorems": [
    "Verif.Props.creation_date_reads",
    "Verif.Props.creation_date_instant",
    "Verif.Props.creation_date_fails",
    "Verif.Props.creation_date_in_file",
    "Verif.Props.no_creation_date"
   ],
   "note": "Proved as stated; in zones that are not whole hours the instant differs (creation_date_fails). time.Time.Format is trusted to print the fields of the time in its location."
  },
  {
   "property": "C58",
   "status": "proved",
   "theorems": [
    "Verif.Props.program_pages",
    "Verif.Props.program_resources"
   ],
   "note": "Proved as stated; zlib and MD5 are parameters of the model."
  },
  {
   "property": "C59",
   "status": "proved",
   "theorems": [
    "Verif.Props.text_extracted"
   ],
   "note": "Proved as stated; the character maps of the fonts are those at the end of the program (they only grow, C24)."
  },
  {
   "property": "C60",
   "status": "proved",
   "theorems": [
    "Verif.Props.program_figures"
   ],
   "note": "Proved as stated; the bytes of a picture (look) are a parameter of the model here, C68 takes them from the PNG file. The group of a mask has no resources of its own: its names are those of the page (finding)."
  },
  {
   "property": "C61",
   "status": "proved",
   "theorems": [
    "Verif.Props.links_in_file",
    "Verif.Props.links_other_height_fails"
   ],
   "note": "Proved as stated; the condition on heights is needed (links_other_height_fails)."
  },
  {
   "property": "C62",
   "status": "proved",
   "theorems": [
    "Verif.Props.bookmarks_in_file",
    "Verif.Props.bookmarks_other_height_fails"
   ],
   "note": "Proved as stated; the condition on heights is needed (bookmarks_other_height_fails)."
  },
  {
   "property": "C63",
   "status": "proved",
   "theorems": [
    "Verif.Props.page_boxes",
    "Verif.Props.drawing_height",
    "Verif.Props.trim_without_size_fails",
    "Verif.Props.option_size_custom_unit_fails"
   ],
   "note": "Proved as stated; the exceptions are trim_without_size_fails and option_size_custom_unit_fails."
  },
  {
   "property": "C64",
   "status": "proved",
   "theorems": [
    "Verif.Props.text_in_callers_fonts",
    "Verif.Props.substitute_chain_fails"
   ],
   "note": "Proved as stated; a substitute that has a substitute itself is drawn differently depending on earlier text (substitute_chain_fails). zlib is a parameter of the model."
  },
  {
   "property": "C65",
   "status": "proved",
   "theorems": [
    "Verif.Props.measured_width",
    "Verif.Props.measured_height",
    "Verif.Props.kern_subtables_fails"
   ],
   "note": "Proved as stated; the condition on kern subtables is needed (kern_subtables_fails)."
  },
  {
   "property": "C66",
   "status": "proved",
   "theorems": [
    "Verif.Props.descriptor_of_callers_font"
   ],
   "note": ""
  },
  {
   "property": "C67",
   "status": "proved",
   "theorems": [
    "Verif.Props.kerning_in_file",
    "Verif.Props.pen_moves_by_measure"
   ],
   "note": ""
  },
  {
   "property": "C68",
   "status": "proved",
   "theorems": [
    "Verif.Props.palette_opacity_lost_fails",
    "Verif.Props.program_pictures",
    "Verif.Props.opaque_mask_empty_fails"
   ],
   "note": "Proved as stated; the exceptions are palette_opacity_lost_fails and opaque_mask_empty_fails (and C35 for the first use). zlib and image.DecodeConfig are parameters of the model."
  },
  {
   "property": "C69",
   "status": "proved",
   "theorems": [
    "Verif.Props.layout_in_file",
    "Verif.Props.default_keeps_text",
    "Verif.Props.header_on_every_page"
   ],
   "note": ""
  },
  {
   "property": "C70",
   "status": "proved",
   "theorems": [
    "Verif.Props.text_look_in_file"
   ],
   "note": ""
  },
  {
   "property": "C71",
   "status": "proved",
   "theorems": [
    "Verif.Props.text_place_in_file"
   ],
   "note": ""
  },
  {
   "property": "C72",
   "status": "proved",
   "theorems": [
    "Verif.Props.program_files",
    "Verif.Props.jpeg_mask_empty_fails"
   ],
   "note": "Proved as stated; the exception is jpeg_mask_empty_fails (and C35 for the first use). image.DecodeConfig and the conversion of GIF files (image.Decode, png.Encode) are parameters of the model."
  },
  {
   "property": "C73",
   "status": "proved",
   "theorems": [
    "Verif.Pool.documents_at_once"
   ],
   "note": ""
  },
  {
   "property": "C74",
   "status": "proved",
   "theorems": [
    "Verif.Caller.given_values_are_written",
    "Verif.Caller.variables_kept",
    "Verif.Caller.slice_twice_fails",
    "Verif.Caller.slice_changed_fails",
    "Verif.Caller.crop_changed_fails",
    "Verif.Caller.mask_twice_fails",
    "Verif.Caller.transparency_changed_fails"
   ],
   "note": "Proved as stated; the conditions are needed: slice_twice_fails, slice_changed_fails, crop_changed_fails, mask_twice_fails, transparency_changed_fails."
  },
  {
   "property": "C75",
   "status": "proved",
   "theorems": [
    "Verif.Props.contains_glyph",
    "Verif.Props.contains_drawn",
    "Verif.Props.contains_not"
   ],
   "note": ""
  },
  {
   "property": "C76",
   "status": "proved",
   "theorems": [
    "Verif.Props.imported_objects",
    "Verif.Props.imported_names",
    "Verif.Props.imported_pages",
    "Verif.Props.import_stops",
    "Verif.Props.import_gap_fails",
    "Verif.Props.imported_size_fails",
    "Verif.Props.imported_protected_fails"
   ],
   "note": "Requirements on the importer (gofpdi, not part of the repository) are hypotheses. import_gap_fails: the numbering condition is needed; imported_size_fails: other units; imported_protected_fails: protected documents."
  },
  {
   "property": "C77",
   "status": "proved",
   "theorems": [
    "Verif.Props.accepted_iff",
    "Verif.Props.complete_font_taken",
    "Verif.Props.incomplete_font_refused",
    "Verif.Props.incomplete_font_refused_fails"
   ],
   "note": "Proved as stated, for files shorter than 2^62 bytes; incomplete_font_refused_fails is the exception."
  },
  {
   "property": "C78",
   "status": "proved",
   "theorems": [
    "Verif.Props.used_object_as_new",
    "Verif.Props.functions_stay",
    "Verif.Props.pages_of_life",
    "Verif.Props.settings_since_start",
    "Verif.Props.used_object_as_new_fails",
    "Verif.Props.second_page_count_fails"
   ],
   "note": "Proved as stated; functions that do not look at the page number in used_object_as_new, any functions in functions_stay. used_object_as_new_fails and second_page_count_fails are the exceptions in the statement."
  },
  {
   "property": "C79",
   "status": "proved",
   "theorems": [
    "Verif.Props.wrapped_by_width",
    "Verif.Props.wrapped_lines_fit",
    "Verif.Props.cells_by_width",
    "Verif.Props.cells_fit",
    "Verif.Props.wrapped_lines_fit_fails",
    "Verif.Props.hyphenated_lines_fit",
    "Verif.Props.table_lines_fit"
   ],
   "note": "Proved as stated; wrapped_lines_fit_fails is the exception in the statement (kerning)."
  },
  {
   "property": "C80",
   "status": "proved",
   "theorems": [
    "Verif.Props.holder_shows_own",
    "Verif.Props.holder_shows_kind",
    "Verif.Props.image_shows_file",
    "Verif.Props.stored_once",
    "Verif.Props.holder_works",
    "Verif.Props.second_document_fails",
    "Verif.Props.drained_fails",
    "Verif.Props.changed_file_fails",
    "Verif.Props.two_roles_fails"
   ],
   "note": "Conditional: no name stands for two different data, and for what the picture is drawn as, one use per picture and document; the exceptions are theorems (second_document_fails, drained_fails, changed_file_fails, two_roles_fails). MD5 and which data can be parsed are parameters."
  },
  {
   "property": "C81",
   "status": "proved",
   "theorems": [
    "Verif.Props.font_style_letters",
    "Verif.Props.set_font_by_letters",
    "Verif.Props.paint_letters",
    "Verif.Props.underline_letter",
    "Verif.Props.line_type_names",
    "Verif.Props.new_transparency_takes",
    "Verif.Props.style_words_fails"
   ],
   "note": "Proved as stated; style_words_fails is the exception. Which characters have which capitals is a hypothesis (Alphabet); NaN is left out."
  },
  {
   "property": "C82",
   "status": "proved",
   "theorems": [
    "Verif.Props.fonts_are_embedded",
    "Verif.Props.call_panics",
    "Verif.Props.program_runs",
    "Verif.Props.measuring_panics",
    "Verif.Props.multi_cell_returns",
    "Verif.Props.multi_cell_option_returns"
   ],
   "note": ""
  },
  {
   "property": "C83",
   "status": "proved",
   "theorems": [
    "Verif.Props.table_as_built",
    "Verif.Props.cell_as_built",
    "Verif.Props.styled_row_copied_fails"
   ],
   "note": "Proved as stated; styled_row_copied_fails is the exception in the statement."
  },
  {
   "property": "C84",
   "status": "proved",
   "theorems": [
    "Verif.Props.filled_shown",
    "Verif.Props.filled_substitute_fails"
   ],
   "note": "Proved as stated, for all inputs in the quantifier. The conditions and exceptions written in the statement are necessary: the claim without them is refuted by filled_substitute_fails."
  },
  {
   "property": "C85",
   "status": "proved",
   "theorems": [
    "Verif.Props.text_tint_in_file"
   ],
   "note": ""
  },
  {
   "property": "C86",
   "status": "proved",
   "theorems": [
    "Verif.Props.call_fails_exactly",
    "Verif.Props.failed_call_keeps",
    "Verif.Props.failed_call_unseen"
   ],
   "note": ""
  },
  {
   "property": "C87",
   "status": "proved",
   "theorems": [
    "Verif.Props.map_file_reads",
    "Verif.Props.encoding_reads",
    "Verif.Props.encoding_reads_fails",
    "Verif.Props.map_file_encoding",
    "Verif.Props.definition_widths",
    "Verif.Props.definition_measures",
    "Verif.Props.definition_describes",
    "Verif.Props.definition_made_iff",
    "Verif.Props.restricted_refused_fails",
    "Verif.Props.definition_width_array",
    "Verif.Props.definition_font",
    "Verif.Props.definition_file"
   ],
   "note": "Proved as stated; encoding_reads_fails and restricted_refused_fails are the exceptions in the statement. Numbers are computed exactly."
  }
 ]
}