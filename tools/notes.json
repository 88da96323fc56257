{
 "C04": {
  "status": "proved",
  "note": "Proved as stated, for all inputs in the quantifier. The conditions and exceptions written in the statement are necessary: the claim without them is refuted by indexed_mask_fails, early_anchor_fails, early_outline_fails."
 },
 "C06": {
  "status": "proved",
  "note": "Proved as stated. The repeatability a user would expect is false of the code: compile_twice_fails refutes it for every document with a page, whatever the history before."
 },
 "C08": {
  "status": "proved",
  "note": "Proved as stated, for all inputs in the quantifier. The conditions and exceptions written in the statement are necessary: the claim without them is refuted by set_page_empty_page_fails, set_page_early_drawing_fails."
 },
 "C10": {
  "status": "proved",
  "note": "Proved as stated. The expectation that a failing destination is reported is false of the code: writeTo_never_reports (every document and destination) and writeTo_error_reported_fails."
 },
 "C12": {
  "status": "proved",
  "note": "Proved as stated, for all inputs in the quantifier. The conditions and exceptions written in the statement are necessary: the claim without them is refuted by split_terminates_fails, split_separator_terminates_fails."
 },
 "C13": {
  "status": "proved",
  "note": "Proved as stated, for all inputs in the quantifier. The conditions and exceptions written in the statement are necessary: the claim without them is refuted by split_no_panic_fails."
 },
 "C14": {
  "status": "proved",
  "note": "Proved as stated. /Parent is wrong in every document (outline_parent_fails)."
 },
 "C15": {
  "status": "proved",
  "note": "Proved as stated, for all inputs in the quantifier. The conditions and exceptions written in the statement are necessary: the claim without them is refuted by top_level_prev_fails."
 },
 "C17": {
  "status": "proved",
  "note": "Proved as stated, for all inputs in the quantifier. The conditions and exceptions written in the statement are necessary: the claim without them is refuted by info_text_roundtrip_fails, info_text_ambiguous_fails."
 },
 "C18": {
  "status": "proved",
  "note": "Proved as stated, for all inputs in the quantifier. The conditions and exceptions written in the statement are necessary: the claim without them is refuted by xobjectGroup_not_encrypted_fails."
 },
 "C20": {
  "status": "proved",
  "note": "Proved as stated, for all inputs in the quantifier. The conditions and exceptions written in the statement are necessary: the claim without them is refuted by permission_high_bits_fails."
 },
 "C21": {
  "status": "proved",
  "note": "Proved as stated, for all inputs in the quantifier. The conditions and exceptions written in the statement are necessary: the claim without them is refuted by page_option_factor_fails."
 },
 "C22": {
  "status": "proved",
  "note": "Proved as stated, for all inputs in the quantifier. The conditions and exceptions written in the statement are necessary: the claim without them is refuted by new_y_unit_fails."
 },
 "C23": {
  "status": "proved",
  "note": "Proved as stated, for all inputs in the quantifier. The conditions and exceptions written in the statement are necessary: the claim without them is refuted by font_resource_fails."
 },
 "C24": {
  "status": "proved",
  "note": "Proved as stated, for all inputs in the quantifier. The conditions and exceptions written in the statement are necessary: the claim without them is refuted by drawn_char_missing_fails."
 },
 "C25": {
  "status": "proved",
  "note": "Proved as stated, for all inputs in the quantifier. The conditions and exceptions written in the statement are necessary: the claim without them is refuted by toUnicode_supplementary_fails, toUnicode_codespace_fails."
 },
 "C26": {
  "status": "proved",
  "note": "Proved as stated, for all inputs in the quantifier. The conditions and exceptions written in the statement are necessary: the claim without them is refuted by cmap_lookup_panics_fails."
 },
 "C28": {
  "status": "proved",
  "note": "Proved as stated, for all inputs in the quantifier. The conditions and exceptions written in the statement are necessary: the claim without them is refuted by nested_component_missing_fails."
 },
 "C32": {
  "status": "proved",
  "note": "Proved as stated, for all inputs in the quantifier. The conditions and exceptions written in the statement are necessary: the claim without them is refuted by empty_chunk_loses_data_fails."
 },
 "C33": {
  "status": "proved",
  "note": "Proved as stated, for all inputs in the quantifier. The conditions and exceptions written in the statement are necessary: the claim without them is refuted by empty_polygon_malformed_fails."
 },
 "C34": {
  "status": "proved",
  "note": "Proved as stated, for all inputs in the quantifier. The conditions and exceptions written in the statement are necessary: the claim without them is refuted by join_loses_colour_fails, join_loses_transparency_fails, join_ignores_rectangle_fails."
 },
 "C35": {
  "status": "proved",
  "note": "Proved as stated, for all inputs in the quantifier. The conditions and exceptions written in the statement are necessary: the claim without them is refuted by orphan_image_fails, mask_then_drawn_fails, masked_then_drawn_fails."
 },
 "C36": {
  "status": "proved",
  "note": "Proved as stated, for all inputs in the quantifier. The conditions and exceptions written in the statement are necessary: the claim without them is refuted by opaque_collides_fails and blend_opaque_fails."
 },
 "C37": {
  "status": "proved",
  "note": "Proved as stated, for all inputs in the quantifier. The conditions and exceptions written in the statement are necessary: the claim without them is refuted by duplicate_left_fails."
 },
 "C38": {
  "status": "proved",
  "note": "Proved as stated, for all inputs in the quantifier. The conditions and exceptions written in the statement are necessary: the claim without them is refuted by unknown_anchor_fails."
 },
 "C39": {
  "status": "proved",
  "note": "Proved as stated, for all inputs in the quantifier. The conditions and exceptions written in the statement are necessary: the claim without them is refuted by spacing_measured_short_fails, cursor_after_br_fails."
 },
 "C40": {
  "status": "proved",
  "note": "Proved as stated, for all inputs in the quantifier. The conditions and exceptions written in the statement are necessary: the claim without them is refuted by justify_not_exact_fails."
 },
 "C41": {
  "status": "proved",
  "note": "Proved as stated, for all inputs in the quantifier. The conditions and exceptions written in the statement are necessary: the claim without them is refuted by multi_cell_loses_fails, multi_cell_overflows_fails, multi_cell_empty_line_fails, multi_cell_float_bottom_fails, multi_cell_vertical_fails, justified_paragraph_end_fails."
 },
 "C42": {
  "status": "proved",
  "note": "Proved as stated, for all inputs in the quantifier. The conditions and exceptions written in the statement are necessary: the claim without them is refuted by table_border_fails, table_black_fails."
 },
 "C43": {
  "status": "proved",
  "note": "Proved as stated, for all inputs in the quantifier. The conditions and exceptions written in the statement are necessary: the claim without them is refuted by arabic_leading_marks_fails, arabic_jeh_fails, arabic_hamza_fails, arabic_digits_fails."
 },
 "C45": {
  "status": "proved",
  "note": "Proved as stated, for all inputs in the quantifier. The conditions and exceptions written in the statement are necessary: the claim without them is refuted by placeholder_unit_fails, placeholder_font_fails, placeholder_refill_fails, placeholder_underline_fails."
 },
 "C46": {
  "status": "proved",
  "note": "Proved as stated, for all inputs in the quantifier. The conditions and exceptions written in the statement are necessary: the claim without them is refuted by rectangle_overlap_fails."
 },
 "C47": {
  "status": "proved",
  "note": "Proved as stated, for all inputs in the quantifier. The conditions and exceptions written in the statement are necessary: the claim without them is refuted by level_too_big_fails."
 },
 "C48": {
  "status": "proved",
  "note": "Proved as stated (figures_drawn; with coloured text figures_drawn_but_fill). The conditions are needed: setPage_height_fails, text_colour_fills_fails, empty_polygon_malformed_fails (C33), masked_mirrored_turned_fails (C50)."
 },
 "C50": {
  "status": "proved",
  "note": "Proved as stated for images without a mask; masked images are covered by C48 except when mirrored or cropped and turned, where the claim is false (masked_mirrored_turned_fails)."
 },
 "C51": {
  "status": "proved",
  "note": "Proved as stated, for all inputs in the quantifier. The conditions and exceptions written in the statement are necessary: the claim without them is refuted by image_size_remembered_fails, crop_not_converted_fails, one_pixel_fails."
 },
 "C52": {
  "status": "proved",
  "note": "Proved as stated for cells with a rectangle; the underline of Text and of aligned text is elsewhere (text_underline_fails, aligned_underline_fails)."
 },
 "C53": {
  "status": "proved",
  "note": "Proved as stated, over exact rational coordinates (float64 rounding before printing is outside the model). The two conditions are needed: template_named_like_image_fails, glyph_number_fails."
 },
 "C54": {
  "status": "proved",
  "note": "Proved as stated; with a template it fails (written_again_fails), and template_moves says by how much."
 },
 "C55": {
  "status": "proved",
  "note": "Proved as stated (every_object_reads_back, references_resolve, resources_in_file, drawing_resolves, font_in_file, image_in_file). Writing a second time makes a malformed page dictionary (compiled_twice_file_fails)."
 },
 "C56": {
  "status": "proved",
  "note": "Proved as stated; zlib and MD5 are parameters of the model (inflate undoes deflate; MD5 sums have 16 bytes)."
 },
 "C57": {
  "status": "proved",
  "note": "Proved as stated; in zones that are not whole hours the instant differs (creation_date_fails). time.Time.Format is trusted to print the fields of the time in its location."
 },
 "C58": {
  "status": "proved",
  "note": "Proved as stated; zlib and MD5 are parameters of the model."
 },
 "C59": {
  "status": "proved",
  "note": "Proved as stated; the character maps of the fonts are those at the end of the program (they only grow, C24)."
 },
 "C60": {
  "status": "proved",
  "note": "Proved as stated; the bytes of a picture (look) are a parameter of the model here, C68 takes them from the PNG file. The group of a mask has no resources of its own: its names are those of the page (finding)."
 },
 "C61": {
  "status": "proved",
  "note": "Proved as stated; the condition on heights is needed (links_other_height_fails)."
 },
 "C62": {
  "status": "proved",
  "note": "Proved as stated; the condition on heights is needed (bookmarks_other_height_fails)."
 },
 "C63": {
  "status": "proved",
  "note": "Proved as stated; the exceptions are trim_without_size_fails and option_size_custom_unit_fails."
 },
 "C64": {
  "status": "proved",
  "note": "Proved as stated; a substitute that has a substitute itself is drawn differently depending on earlier text (substitute_chain_fails). zlib is a parameter of the model."
 },
 "C65": {
  "status": "proved",
  "note": "Proved as stated; the condition on kern subtables is needed (kern_subtables_fails)."
 },
 "C68": {
  "status": "proved",
  "note": "Proved as stated; the exceptions are palette_opacity_lost_fails and opaque_mask_empty_fails (and C35 for the first use). zlib and image.DecodeConfig are parameters of the model."
 },
 "C72": {
  "status": "proved",
  "note": "Proved as stated; the exception is jpeg_mask_empty_fails (and C35 for the first use). image.DecodeConfig and the conversion of GIF files (image.Decode, png.Encode) are parameters of the model."
 },
 "C74": {
  "status": "proved",
  "note": "Proved as stated; the conditions are needed: slice_twice_fails, slice_changed_fails, crop_changed_fails, mask_twice_fails, transparency_changed_fails."
 },
 "C76": {
  "status": "proved",
  "note": "Requirements on the importer (gofpdi, not part of the repository) are hypotheses. import_gap_fails: the numbering condition is needed; imported_size_fails: other units; imported_protected_fails: protected documents."
 },
 "C77": {
  "status": "proved",
  "note": "Proved as stated, for files shorter than 2^62 bytes; incomplete_font_refused_fails is the exception."
 },
 "C78": {
  "status": "proved",
  "note": "Proved as stated; functions that do not look at the page number in used_object_as_new, any functions in functions_stay. used_object_as_new_fails and second_page_count_fails are the exceptions in the statement."
 },
 "C79": {
  "status": "proved",
  "note": "Proved as stated; wrapped_lines_fit_fails is the exception in the statement (kerning)."
 },
 "C80": {
  "status": "proved",
  "note": "Conditional: no name stands for two different data, and for what the picture is drawn as, one use per picture and document; the exceptions are theorems (second_document_fails, drained_fails, changed_file_fails, two_roles_fails). MD5 and which data can be parsed are parameters."
 },
 "C81": {
  "status": "proved",
  "note": "Proved as stated; style_words_fails is the exception. Which characters have which capitals is a hypothesis (Alphabet); NaN is left out."
 },
 "C83": {
  "status": "proved",
  "note": "Proved as stated; styled_row_copied_fails is the exception in the statement."
 },
 "C84": {
  "status": "proved",
  "note": "Proved as stated, for all inputs in the quantifier. The conditions and exceptions written in the statement are necessary: the claim without them is refuted by filled_substitute_fails."
 },
 "C87": {
  "status": "proved",
  "note": "Proved as stated; encoding_reads_fails and restricted_refused_fails are the exceptions in the statement. Numbers are computed exactly."
 }
}