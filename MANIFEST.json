{
 "claims": [
  {
   "property": "C01",
   "status": "proved",
   "theorems": [
    "Verif.Linemap.lookup_correct",
    "Verif.Linemap.lookup_defined"
   ],
   "note": "restriction on explicit virtual lines shown necessary by Verif.Linemap.set_at_first_line_wrong"
  },
  {
   "property": "C02",
   "status": "partial",
   "theorems": [
    "Verif.Linemap.poke_partial",
    "Verif.Linemap.poke_does_not_restore"
   ],
   "note": "poked line and earlier lines proved; the 'restoring' clause is false of the code (witness proved)"
  },
  {
   "property": "C03",
   "status": "partial",
   "theorems": [
    "Verif.Errwarn.diagnostics_sorted",
    "Verif.Errwarn.diagnostics_complete_partial",
    "Verif.Errwarn.parse_error_moves_report",
    "Verif.Errwarn.output_all_in_order",
    "Verif.Errwarn.output_all_notice"
   ],
   "note": "order proved for all histories; completeness for histories without PARSE-class errors; with them the clause 'no report is moved to another line' is false (witness proved)"
  },
  {
   "property": "C04",
   "status": "proved",
   "theorems": [
    "Verif.Errwarn.first_error_wins",
    "Verif.Errwarn.warnings_fifo"
   ],
   "note": ""
  },
  {
   "property": "C05",
   "status": "proved",
   "theorems": [
    "Verif.Hamt.hamt_is_map"
   ],
   "note": "no out-of-bounds access is part of the statement; insertion may fail to return, see C07"
  },
  {
   "property": "C06",
   "status": "proved",
   "theorems": [
    "Verif.Hamt.traverse_spec",
    "Verif.Hamt.traverse_order"
   ],
   "note": ""
  },
  {
   "property": "C07",
   "status": "partial",
   "theorems": [
    "Verif.Hamt.insert_returns_iff_partial",
    "Verif.Hamt.insert_may_diverge"
   ],
   "note": "false of the code: two different letter strings exist on which insertion never returns (proved by pigeonhole over the finite space of hash functions); exact condition for returning is proved"
  },
  {
   "property": "C08",
   "status": "partial",
   "theorems": [
    "Verif.Inttree.empty_valid",
    "Verif.Inttree.insert_valid",
    "Verif.Inttree.insertAll_valid",
    "Verif.Inttree.delete_valid",
    "Verif.Inttree.history_valid",
    "Verif.Inttree.valid_depth",
    "Verif.Inttree.neighbours",
    "Verif.Inttree.insert_backwards"
   ],
   "note": "proved for every history of insertions and deletions with low <= high; an interval inserted backwards caches a wrong maximum (proved)"
  },
  {
   "property": "C09",
   "status": "partial",
   "theorems": [
    "Verif.Inttree.enumerate_exact",
    "Verif.Inttree.insert_then_enumerate",
    "Verif.Inttree.enumerate_truncates",
    "Verif.Inttree.enumerate_long_min"
   ],
   "note": "exact for endpoints that fit an int; long endpoints are truncated and a query from LONG_MIN misses right subtrees (proved)"
  },
  {
   "property": "C10",
   "status": "partial",
   "theorems": [
    "Verif.Intnum.calc_value_partial",
    "Verif.Intnum.calc_unary",
    "Verif.Intnum.calc_missing_operand",
    "Verif.Intnum.mul_overflow_wrong",
    "Verif.Intnum.shr_wide_count_wrong",
    "Verif.Intnum.long_truncated",
    "Verif.Intnum.seg_stale"
   ],
   "note": "exact for all operators and canonical operands except products >= 2^255 in magnitude, right shifts of negatives by counts stored as vectors and longs outside 32 bits; the code is wrong there (proved)"
  },
  {
   "property": "C11",
   "status": "partial",
   "theorems": [
    "Verif.Intnum.div_by_zero",
    "Verif.Intnum.div_mod_spec",
    "Verif.Intnum.div_by_long_wrong"
   ],
   "note": "zero divisor clause and division equation proved; a long divisor that is a multiple of 2^32 is misreported as zero (proved)"
  },
  {
   "property": "C12",
   "status": "partial",
   "theorems": [
    "Verif.Intnum.compare_order",
    "Verif.Intnum.sign_correct",
    "Verif.Intnum.small_tests",
    "Verif.Intnum.create_uint_wrong"
   ],
   "note": "proved for every representation the library reduces to; create_uint of 2^63 and above gives a wrong number (proved)"
  },
  {
   "property": "C13",
   "status": "partial",
   "theorems": [
    "Verif.Intnum.get_uint_partial",
    "Verif.Intnum.get_uint_wrong",
    "Verif.Intnum.get_int_partial",
    "Verif.Intnum.get_int_wrong"
   ],
   "note": "exact result stated for every canonical number except get_uint in [2^32,2^33); the code does not saturate there and get_int saturates at 32 bits (proved)"
  },
  {
   "property": "C14",
   "status": "partial",
   "theorems": [
    "Verif.Intnum.get_sized_field",
    "Verif.Intnum.get_sized_warns",
    "Verif.Intnum.get_sized_const",
    "Verif.Intnum.get_sized_mutates",
    "Verif.Intnum.sized_roundtrip"
   ],
   "note": "field, other bits and warnings proved; big endian is not implemented and right shifts change the argument (proved)"
  },
  {
   "property": "C15",
   "status": "partial",
   "theorems": [
    "Verif.Intnum.check_size_exact",
    "Verif.Intnum.check_size_wide",
    "Verif.Intnum.check_size_zero_wrong",
    "Verif.Intnum.in_range_exact",
    "Verif.Intnum.in_range_wrong"
   ],
   "note": "exact for widths 1..255 and bounds within 32 bits; witnesses for the rest"
  },
  {
   "property": "C16",
   "status": "partial",
   "theorems": [
    "Verif.Intnum.leb_encode_partial",
    "Verif.Intnum.leb_roundtrip_partial",
    "Verif.Intnum.leb_read",
    "Verif.Intnum.leb_negative_wrong",
    "Verif.Intnum.leb_large_wrong",
    "Verif.Intnum.leb_zero_wrong",
    "Verif.Intnum.sleb_uleb_long"
   ],
   "note": "proved up to about 2^251; wrong beyond (proved)"
  },
  {
   "property": "C17",
   "status": "partial",
   "theorems": [
    "Verif.Literal.hex_literal_partial",
    "Verif.Literal.oct_literal_partial",
    "Verif.Literal.bin_literal_partial",
    "Verif.Literal.bad_literal_diagnosed",
    "Verif.Literal.pow2_literal_overflow_silent",
    "Verif.Literal.dec_literal",
    "Verif.Literal.dec_literal_minus",
    "Verif.Literal.dec_literal_wrong"
   ],
   "note": "values proved for every well-formed literal; the overflow clause is proved for decimals and false for the other bases (proved); decimals with over 81 digits or '-0' are wrongly rejected (proved)"
  },
  {
   "property": "C18",
   "status": "proved",
   "theorems": [
    "Verif.Intnum.charconst_nasm",
    "Verif.Intnum.charconst_tasm"
   ],
   "note": ""
  },
  {
   "property": "C19",
   "status": "partial",
   "theorems": [
    "Verif.Expr.Props.simplify_value_partial",
    "Verif.Expr.Props.create_value_partial",
    "Verif.Expr.Props.get_intnum_value_partial",
    "Verif.Expr.Props.land_not_normalised",
    "Verif.Expr.Props.lor_not_normalised",
    "Verif.Expr.Props.float_negation_lost"
   ],
   "note": "value preserved by building and simplification, EQU expansion and label distances included, for all expressions without floats whose && and || operands are truth values and whose constant folds are sound; the code is wrong outside (witnesses)"
  },
  {
   "property": "C20",
   "status": "partial",
   "theorems": [
    "Verif.Expr.Props.constant_folds_partial",
    "Verif.Expr.Props.fold_div_by_zero"
   ],
   "note": "folding to one integer is unconditional; equality with the value needs every fold to be one yasm_intnum_calc gets right (C10)"
  },
  {
   "property": "C21",
   "status": "proved",
   "theorems": [
    "Verif.Expr.Props.circular_iff",
    "Verif.Expr.Props.circular_bound"
   ],
   "note": ""
  },
  {
   "property": "C22",
   "status": "partial",
   "theorems": [
    "Verif.Expr.Props.create_no_fault",
    "Verif.Expr.Props.simplify_no_fault_partial",
    "Verif.Expr.Props.simplify_total",
    "Verif.Expr.Props.null_destroyed",
    "Verif.Expr.Props.destroyed_twice",
    "Verif.Expr.Props.past_the_end"
   ],
   "note": "false of the code: witnesses of a null dereference, a double free and an out-of-bounds loop; proved for building and for the trees stated"
  },
  {
   "property": "C23",
   "status": "proved",
   "theorems": [
    "Verif.Sort.mergesort_stable",
    "Verif.Sort.stableSort_unique",
    "Verif.Sort.mergesort_of_ascending",
    "Verif.Sort.mergesort_idempotent",
    "Verif.Sort.mergesort_is_the_stable_sort",
    "Verif.Sort.orderTerms_sorts",
    "Verif.Sort.orderTerms_canonical",
    "Verif.Sort.orderTerms_other",
    "Verif.Sort.orderTerms_value",
    "Verif.Sort.orderTerms_idempotent"
   ],
   "note": "mergesort.c (natural runs, exponential search, all lengths) proved to be the stable sort for every total preorder; element copying byte by byte and the pointer encoding of run boundaries are not modelled."
  },
  {
   "property": "C24",
   "status": "partial",
   "theorems": [
    "Verif.Symtab.symtab_safe",
    "Verif.Symtab.symbol_facts",
    "Verif.Symtab.one_record",
    "Verif.Symtab.record_stays",
    "Verif.Symtab.definition_accepted",
    "Verif.Symtab.redefinition_reported",
    "Verif.Symtab.first_definition_stays",
    "Verif.Symtab.destroyed_once",
    "Verif.Symtab.pending_error_loses_value"
   ],
   "note": "proved for every history of calls, case folding included; a definition made while an error is pending leaves the symbol defined with its value never stored (proved)"
  },
  {
   "property": "C25",
   "status": "proved",
   "theorems": [
    "Verif.Symtab.undefined_reported",
    "Verif.Symtab.undefined_listed",
    "Verif.Symtab.undefined_made_extern"
   ],
   "note": "undefined_listed composes the symbol table with the diagnostics model"
  },
  {
   "property": "C26",
   "status": "partial",
   "theorems": [
    "Verif.Symtab.declare_result",
    "Verif.Symtab.never_common_and_extern",
    "Verif.Symtab.common_then_defined",
    "Verif.Symtab.last_declaration_line"
   ],
   "note": "exact acceptance condition proved for every history; the code accepts a definition of a common symbol and keeps the last, not the first, declaration line (proved)"
  },
  {
   "property": "C27",
   "status": "proved",
   "theorems": [
    "Verif.Optimize.optimize_contiguous",
    "Verif.Optimize.optimize_same",
    "Verif.Optimize.optimize_align",
    "Verif.Optimize.optimize_org"
   ],
   "note": "For any instruction set meeting the callback contract (Machine.Ok), proved of x86 and LC-3b (x86_ok, lc3b_ok). Offsets as integers (no wrap at 2^63)."
  },
  {
   "property": "C28",
   "status": "proved",
   "theorems": [
    "Verif.Bytecode.align_minimal",
    "Verif.Bytecode.align_maxskip",
    "Verif.Bytecode.align_zero",
    "Verif.Bytecode.align_short",
    "Verif.Bytecode.align_not_power_of_two"
   ],
   "note": "Power-of-two boundaries, as the property says; other boundaries are accepted and misaligned (align_not_power_of_two). Offsets do not wrap at 2^64."
  },
  {
   "property": "C29",
   "status": "proved",
   "theorems": [
    "Verif.Bytecode.org_reaches"
   ],
   "note": "Layout and emission of the org bytecode; what the optimizer does when an org is overrun during expansion is in Verif.Optimize."
  },
  {
   "property": "C30",
   "status": "partial",
   "theorems": [
    "Verif.Bytecode.align_emits",
    "Verif.Bytecode.org_reaches",
    "Verif.Bytecode.incbin_emits",
    "Verif.Bytecode.data_layout_partial",
    "Verif.Bytecode.emitted_length",
    "Verif.Bytecode.length_mismatch_caught",
    "Verif.Bytecode.align_lc3b_odd",
    "Verif.Bytecode.unknown_count_mismatch",
    "Verif.Bytecode.fill_tables"
   ],
   "note": "False for LC-3b code alignment by an odd amount (align_lc3b_odd) and after a reported bad repeat count (unknown_count_mismatch); instructions are not covered."
  },
  {
   "property": "C31",
   "status": "partial",
   "theorems": [
    "Verif.Bytecode.data_layout_partial",
    "Verif.Bytecode.zero_count_emits",
    "Verif.Bytecode.empty_string_null",
    "Verif.Bytecode.leb_string_ub"
   ],
   "note": "False for a repeat count of 0 (emitted once), for a repeated empty string (null dereference) and for a string in a LEB128 directive (division by zero); proved otherwise."
  },
  {
   "property": "C32",
   "status": "partial",
   "theorems": [
    "Verif.Optimize.optimize_in_range",
    "Verif.Optimize.x86_short_jump_reaches",
    "Verif.Optimize.x86_short_jump_label",
    "Verif.Optimize.x86_short_operands_fit",
    "Verif.Optimize.lc3b_branch_partial",
    "Verif.Optimize.lc3b_branch_too_far"
   ],
   "note": "Proved for x86 and for any instruction set meeting the contract. False for LC-3b: thresholds in bytes are compared with values in words, so branches too far are accepted (lc3b_branch_too_far). A repeated (TIMES) jump is checked for its first copy only."
  },
  {
   "property": "C33",
   "status": "partial",
   "theorems": [
    "Verif.Optimize.optimize_terminates_partial",
    "Verif.Optimize.optimize_never_shrinks",
    "Verif.Optimize.times_align_never_ends",
    "Verif.Optimize.times_cycle_never_ends",
    "Verif.Optimize.negative_times_internal_error"
   ],
   "note": "Termination proved when no repeat count depends on labels; with such counts it is false (times_align_never_ends, times_cycle_never_ends). Growth of instructions proved."
  },
  {
   "property": "C34",
   "status": "proved",
   "theorems": [
    "Verif.Section.sections_in_creation_order",
    "Verif.Section.get_general_spec",
    "Verif.Section.new_section_state",
    "Verif.Section.find_general_spec",
    "Verif.Section.section_contents",
    "Verif.Section.section_data",
    "Verif.Section.never_aborts",
    "Verif.Section.bcs_traverse_spec",
    "Verif.Section.sections_traverse_spec",
    "Verif.Section.relocs_destroyed"
   ],
   "note": "For every history of calls and any object-format hook acting on the new section."
  },
  {
   "property": "C35",
   "status": "partial",
   "theorems": [
    "Verif.Value.Props.finalize_value_partial",
    "Verif.Value.Props.finalize_plain_value",
    "Verif.Value.Props.finalize_ends",
    "Verif.Value.Props.finalize_shift",
    "Verif.Value.Props.finalize_sym_const",
    "Verif.Value.Props.finalize_two_symbols",
    "Verif.Value.Props.finalize_cross_section",
    "Verif.Value.Props.value_intnum_meaning_partial",
    "Verif.Value.Props.output_basic_meaning_partial",
    "Verif.Value.Props.emitted_value",
    "Verif.Value.Props.set_curpos_rel_meaning",
    "Verif.Value.Props.equ_curpos_wrong",
    "Verif.Value.Props.shift_negative_wrong",
    "Verif.Value.Props.wrt_in_product_wrong",
    "Verif.Value.Props.wrt_number_ignored",
    "Verif.Value.Props.symbol_left_in_absolute",
    "Verif.Value.Props.many_terms_fatal"
   ],
   "note": "Value preserved for every expression, symbol table and layout, down to the bits of the output field, under the limits of C19; false of the code for an EQU of $, negative shifts and WRT inside products (all proved)."
  },
  {
   "property": "C36",
   "status": "partial",
   "theorems": [
    "Verif.Floatnum.conversion_partial",
    "Verif.Floatnum.conversion_infinity",
    "Verif.Floatnum.rounded_unique",
    "Verif.Floatnum.conversion_zero",
    "Verif.Floatnum.conversion_total",
    "Verif.Floatnum.checkSize_iff",
    "Verif.Floatnum.neg_fields",
    "Verif.Floatnum.tables_exponents",
    "Verif.Floatnum.tables_rounded_partial",
    "Verif.Floatnum.extended_overflow_not_infinity",
    "Verif.Floatnum.table_first_misrounded"
   ],
   "note": "Rounding and reports proved for every internal number and every format.  False of the code: overflow in the 80-bit format leaves the leading bit clear, and 10^-4096 is held one unit too low (both proved)."
  },
  {
   "property": "C37",
   "status": "partial",
   "theorems": [
    "Verif.Assoc.assoc_is_map",
    "Verif.Assoc.assoc_destroyed_when_given_up",
    "Verif.Assoc.assoc_destroyed_once",
    "Verif.Assoc.assoc_add_spares_new",
    "Verif.Assoc.assoc_add_never_destroys_null",
    "Verif.Assoc.destroy_called_with_null",
    "Verif.Assoc.shared_data_destroyed_twice"
   ],
   "note": "The map and the destruction count are proved for every history; the final destruction hands NULL to callbacks, and data shared by two callbacks is destroyed twice (both proved)."
  },
  {
   "property": "C38",
   "status": "partial",
   "theorems": [
    "Verif.File.splitpath_spec",
    "Verif.File.combpath_partial",
    "Verif.File.combpath_fits",
    "Verif.File.combpath_absolute",
    "Verif.File.comb_dot_wrong",
    "Verif.File.comb_dotted_wrong"
   ],
   "note": "Unix versions.  False of the code for a '.' inside the base directory when climbing past it and for directory names ending in one dot (both proved); proved otherwise."
  },
  {
   "property": "C39",
   "status": "partial",
   "theorems": [
    "Verif.File.unescape_spec",
    "Verif.File.unescape_unambiguous",
    "Verif.File.unescape_plain",
    "Verif.File.alert_not_decoded",
    "Verif.File.octal_beyond"
   ],
   "note": "Bounds, in-place safety and decoding proved for every byte string against the escapes the code knows; C's \\a and \\v are not among them (proved), and octal accepts the digits 8 and 9 with a warning."
  },
  {
   "property": "C40",
   "status": "proved",
   "theorems": [
    "Verif.Md5.md5_correct",
    "Verif.Md5.md5_chunking",
    "Verif.Md5.md5_empty_update",
    "Verif.Md5.rfc_vectors"
   ],
   "note": "Moreover the digest is RFC 1321's, for every width of unsigned long of at least 32 bits."
  },
  {
   "property": "C41",
   "status": "proved",
   "theorems": [
    "Verif.Linemap.getSource_correct"
   ],
   "note": ""
  },
  {
   "property": "C42",
   "status": "partial",
   "theorems": [
    "Verif.Errwarn.errorMatches_subclass",
    "Verif.Errwarn.errorMatches_general_wrong",
    "Verif.Errwarn.errorMatches_none_wrong"
   ],
   "note": "subclass matching proved for specific errors; the documented GENERAL query is false of the code (proved)"
  },
  {
   "property": "C43",
   "status": "proved",
   "theorems": [
    "Verif.Hamt.bitCount_popcount"
   ],
   "note": ""
  },
  {
   "property": "C44",
   "status": "partial",
   "theorems": [
    "Verif.Intnum.create_sized_value",
    "Verif.Intnum.create_sized_long",
    "Verif.Intnum.create_sized_wrong",
    "Verif.Intnum.sized_roundtrip"
   ],
   "note": "1..32 bytes little endian proved; empty signed fields read before the buffer, big endian not implemented"
  },
  {
   "property": "C45",
   "status": "partial",
   "theorems": [
    "Verif.Literal.get_str_decimal",
    "Verif.Literal.print_read",
    "Verif.Literal.get_str_overrun"
   ],
   "note": "proved for every canonical number; numbers created from longs of 16 or more characters overrun the buffer (proved)"
  },
  {
   "property": "C46",
   "status": "proved",
   "theorems": [
    "Verif.Bytecode.code_padding_runs"
   ],
   "note": ""
  },
  {
   "property": "C47",
   "status": "partial",
   "theorems": [
    "Verif.Optimize.optimize_times_count",
    "Verif.Optimize.negative_times_internal_error"
   ],
   "note": "Exact, except that an expression without a value at the final offsets gives the largest long; negative counts are not diagnosed."
  },
  {
   "property": "C48",
   "status": "proved",
   "theorems": [
    "Verif.Optimize.x86_jump_form",
    "Verif.Optimize.x86_insn_form"
   ],
   "note": "Lengths and forms; the bytes emitted are not part of this property."
  },
  {
   "property": "C49",
   "status": "proved",
   "theorems": [
    "Verif.Directive.directive_dispatch",
    "Verif.Directive.call_never_null",
    "Verif.Directive.load_returns",
    "Verif.Directive.shipped_tables_load"
   ],
   "note": "For any tables whose loading returns; loading returns for every shipped combination of object format, debug format and architecture."
  },
  {
   "property": "C50",
   "status": "partial",
   "theorems": [
    "Verif.Directive.dir_helper_spec",
    "Verif.Directive.handles_unique",
    "Verif.Directive.flag_helpers",
    "Verif.Directive.empty_id_overrun"
   ],
   "note": "Proved for all parameters except an empty identifier without prefix, which is read past its end (proved)."
  },
  {
   "property": "C51",
   "status": "partial",
   "theorems": [
    "Verif.Floatnum.literal_read",
    "Verif.Floatnum.literal_zero",
    "Verif.Floatnum.literal_emitted_partial",
    "Verif.Floatnum.literal_emitted_long_partial",
    "Verif.Floatnum.literal_not_nearest",
    "Verif.Floatnum.literal_digits_dropped",
    "Verif.Floatnum.literal_double_not_nearest"
   ],
   "note": "Nearest up to 2^-73 of the value for at most 19 significant digits, up to 2^-58 otherwise (half, single, double); exact literals exact; range behaviour proved.  Strict nearness is false (three witnesses)."
  },
  {
   "property": "C52",
   "status": "partial",
   "theorems": [
    "Verif.Ea.address_partial",
    "Verif.Ea.other_bits_kept",
    "Verif.Ea.multiplier_saturates",
    "Verif.Ea.multiplier_wraps",
    "Verif.Ea.register_missed",
    "Verif.Ea.product_rejected_16",
    "Verif.Ea.shifted_difference_aborts",
    "Verif.Ea.qword_displacement_aborts"
   ],
   "note": "Proved against an independent ModRM/SIB decoder for 16-, 32- and 64-bit addresses, RIP-relative and vector-index operands, every register file.  Excluded: register multipliers of 2^31-1 or more (proved wrong), registers inside a multiplied sum in 16-bit addresses, and a lone product of three or more factors."
  },
  {
   "property": "C53",
   "status": "proved",
   "theorems": [
    "Verif.Insn.Props.insn_length",
    "Verif.Insn.Props.insn_widen_safe",
    "Verif.Insn.Props.jmp_length",
    "Verif.Insn.Props.jmp_widen_safe",
    "Verif.Insn.Props.far_length",
    "Verif.Insn.Props.outputs_do_their_part"
   ],
   "note": "For every state the parser can construct (spelled out as Start) and every history."
  },
  {
   "property": "C54",
   "status": "partial",
   "theorems": [
    "Verif.Insn.Props.jumps_land_partial",
    "Verif.Insn.Props.short_span"
   ],
   "note": "Proved for the short and near form, each copy, without relocation and for flat binary; missing: targets from which a mask was taken off (noWarn set), where a warning may be left out."
  },
  {
   "property": "C55",
   "status": "proved",
   "theorems": [
    "Verif.Insn.Props.vex_from_table",
    "Verif.Insn.Props.vex_prefix",
    "Verif.Insn.Props.rex_prefix"
   ],
   "note": "Against a separate decoder of VEX/XOP prefixes; the high-byte registers (REX forbidden) are excluded, as they cannot occur with VEX."
  },
  {
   "property": "C56",
   "status": "partial",
   "theorems": [
    "Verif.Insn.Props.operand_bytes_partial",
    "Verif.Insn.Props.immediate_bytes_partial",
    "Verif.Insn.Props.far_bytes_partial",
    "Verif.Insn.Props.byte_disp_wraps",
    "Verif.Insn.Props.high_disp_wraps",
    "Verif.Insn.Props.bin_times_rel_wrong",
    "Verif.Insn.Props.bin_ignores_wrt"
   ],
   "note": "Proved for every copy, for outputs that write the value (without relocation; flat binary except copies of RIP-relative operands).  False of the code: unreported wrapped displacements, RIP-relative copies and WRT in flat binary (all proved)."
  },
  {
   "property": "C57",
   "status": "partial",
   "theorems": [
    "Verif.Dwarf.loc_code",
    "Verif.Dwarf.line_table_partial",
    "Verif.Dwarf.source_table_partial",
    "Verif.Dwarf.options_partial",
    "Verif.Dwarf.is_stmt_inverted",
    "Verif.Dwarf.code_before_loc_wrong",
    "Verif.Dwarf.label_after_first_wrong",
    "Verif.Dwarf.loc_at_end_crashes",
    "Verif.Dwarf.no_label"
   ],
   "note": "Proved for all locations and layouts if the label the address is taken from lies at the first location, code follows every location, and numbers are below 2^32.  False of the code otherwise: wrong addresses, a crash, and is_stmt inverted (all proved)."
  },
  {
   "property": "C58",
   "status": "partial",
   "theorems": [
    "Verif.Dwarf.add_file",
    "Verif.Dwarf.source_number",
    "Verif.Dwarf.unit_partial",
    "Verif.Dwarf.unit_table_partial",
    "Verif.Dwarf.empty_name_wrong"
   ],
   "note": "File numbers proved for every history; the header for names that are not empty.  A path that ends in a slash cuts the table short (proved)."
  },
  {
   "property": "C59",
   "status": "partial",
   "theorems": [
    "Verif.Bin.follows_accepted",
    "Verif.Bin.load_addresses",
    "Verif.Bin.default_order",
    "Verif.Bin.default_layout",
    "Verif.Bin.virtual_addresses_partial",
    "Verif.Bin.valign_crash",
    "Verif.Bin.align_intnum_partial",
    "Verif.Bin.align_accepted_partial",
    "Verif.Bin.align_wrong"
   ],
   "note": "Load addresses proved for every list of sections.  Virtual addresses proved when there is a result: a valign before a section with a larger alignment dereferences a null pointer (proved).  align=0 or a negative one is accepted and gives a wrong address (proved)."
  },
  {
   "property": "C60",
   "status": "partial",
   "theorems": [
    "Verif.Bin.image_partial",
    "Verif.Bin.overlap_exact",
    "Verif.Bin.before_origin",
    "Verif.Bin.far_section_wrong",
    "Verif.Bin.negative_origin"
   ],
   "note": "Proved for sections less than 2^31 bytes after the origin; further ones end in a fatal error although they are representable (proved)."
  },
  {
   "property": "C61",
   "status": "proved",
   "theorems": [
    "Verif.Parse.nasm_expression",
    "Verif.Parse.nasm_prefix",
    "Verif.Parse.nasm_sound",
    "Verif.Parse.nasm_operand",
    "Verif.Parse.pp_expression",
    "Verif.Parse.gas_expression",
    "Verif.Parse.gas_prefix",
    "Verif.Parse.unambiguous",
    "Verif.Parse.never_stuck",
    "Verif.Parse.kinds",
    "Verif.Parse.pp_reports"
   ],
   "note": "The three recursive descent parsers against grammars given by operator tables; the scanners are not modelled."
  },
  {
   "property": "C62",
   "status": "partial",
   "theorems": [
    "Verif.Parse.built_value_partial",
    "Verif.Parse.built_no_fault",
    "Verif.Parse.parsed_proper"
   ],
   "note": "Proved under the conditions of C19 (no floating-point numbers, constant computations the library gets right); no memory faults for any tree."
  },
  {
   "property": "C63",
   "status": "partial",
   "theorems": [
    "Verif.Elf.sections_read_partial",
    "Verif.Elf.nobits_data_lost",
    "Verif.Elf.rela_misaligned",
    "Verif.Elf.wide_equ_asserts"
   ],
   "note": "Proved for every list of sections that fits the format (files below 4 GiB, fewer than 0xff00 sections).  Data in SHT_NOBITS sections is silently lost, and 64-bit relocation sections are not aligned as their headers say (both proved)."
  },
  {
   "property": "C64",
   "status": "partial",
   "theorems": [
    "Verif.Elf.symbols_read_partial",
    "Verif.Elf.type_drops_prefix",
    "Verif.Elf.weak_drops_qualifiers",
    "Verif.Elf.weak_extern_lost",
    "Verif.Elf.wide_equ_asserts"
   ],
   "note": "Proved for all symbols and directives except those combinations that the code gets wrong: a type or size directive drops the prefix, weak drops the qualifiers of GLOBAL, EXTERN drops weak, and values wider than the fields end in an assertion (all proved)."
  },
  {
   "property": "C65",
   "status": "partial",
   "theorems": [
    "Verif.Elf.references_linked_partial",
    "Verif.Elf.refused_iff",
    "Verif.Elf.global_named",
    "Verif.Elf.got_relative_wrong",
    "Verif.Elf.plt_absolute_wrong"
   ],
   "note": "Proved for the formulas of both ABI supplements, all special symbols, and every placement.  Excluded: _GLOBAL_OFFSET_TABLE_ - $ in 32-bit code, off by the offset in the instruction (proved), special symbols in a value of the wrong kind, which are accepted (proved), and TLSCALL, which marks an instruction."
  },
  {
   "property": "C66",
   "status": "partial",
   "theorems": [
    "Verif.Words.add_exact",
    "Verif.Words.sub_exact",
    "Verif.Words.negate_exact",
    "Verif.Words.increment_exact",
    "Verif.Words.compare_exact",
    "Verif.Words.multiply_exact_partial",
    "Verif.Words.multiply_edge",
    "Verif.Words.divide_exact"
   ],
   "note": "The word loops for vectors of any length.  Only multiplication is partial: when the product has magnitude exactly 2^(n-1) the code may accept a product that does not fit and refuse one that does (both proved)."
  },
  {
   "property": "C67",
   "status": "proved",
   "theorems": [
    "Verif.Words.bit_exact",
    "Verif.Words.end_bits_exact",
    "Verif.Words.sets_exact",
    "Verif.Words.shift_exact",
    "Verif.Words.max_exact",
    "Verif.Words.copy_exact",
    "Verif.Words.field_written",
    "Verif.Words.field_read",
    "Verif.Words.range_filled",
    "Verif.Words.range_copied",
    "Verif.Words.bytes_exact"
   ],
   "note": "The word loops for vectors of any length; range copying for two different vectors, as it is used."
  },
  {
   "property": "C68",
   "status": "proved",
   "theorems": [
    "Verif.Match.first_fitting_form",
    "Verif.Match.none_only_if_none_fits",
    "Verif.Match.accepted_iff_fits",
    "Verif.Match.report_exact"
   ],
   "note": "The model follows x86_find_match and x86_match_error test by test; fitting is defined separately (Verif/Match/Spec.lean)."
  },
  {
   "property": "C69",
   "status": "partial",
   "theorems": [
    "Verif.Match.register_operands",
    "Verif.Match.segment_operand",
    "Verif.Match.rex_w",
    "Verif.Match.immediate_operand",
    "Verif.Match.register_in_immediate",
    "Verif.Match.memory_operand",
    "Verif.Match.mov_accumulator",
    "Verif.Match.mov_registers",
    "Verif.Match.mov_immediate",
    "Verif.Match.mov_register_lost",
    "Verif.Match.mov_relative_lost",
    "Verif.Match.o64_loses_register",
    "Verif.Match.segment_prefix_stops",
    "Verif.Match.gas_loop_stops",
    "Verif.Match.gas_five_operands_stops",
    "Verif.Match.loop_cx_accepted"
   ],
   "note": "Proved for every form whose operands are for different fields, and for the forms of MOV that look for a shorter form at the end.  Excluded: written REX and o64 prefixes, which overwrite REX (proved), and MOV of the accumulator with a 32-bit address in 64-bit mode, which takes a register for an address and a relative address for an absolute one (proved)."
  },
  {
   "property": "C70",
   "status": "partial",
   "theorems": [
    "Verif.Match.registers_encoded_partial",
    "Verif.Match.memory_encoded",
    "Verif.Match.immediate_encoded_partial",
    "Verif.Match.segments_encoded",
    "Verif.Match.mov_table",
    "Verif.Match.pslldq_operand_lost"
   ],
   "note": "Proved for every name and form of both tables by a check of the whole table in the kernel and the theorems of C69.  Fails for pslldq and psrldq with three operands (proved: pslldq_operand_lost).  Not covered: jumps, and the two immediates of extrq and insertq in the place of an address."
  },
  {
   "property": "C71",
   "status": "partial",
   "theorems": [
    "Verif.Match.names_distinct",
    "Verif.Match.name_found",
    "Verif.Match.mode_refusal_exact",
    "Verif.Match.refused_none_fits",
    "Verif.Match.processor_refusal_partial",
    "Verif.Match.paddb_refused",
    "Verif.Match.bswap_refused",
    "Verif.Match.keywords_short"
   ],
   "note": "Names and modes are proved for both tables (modes for the names whose mode is not given outright in the script).  Processors: fails for names with forms for different processors (proved: paddb_refused, bswap_refused), proved for the others.  The perfect hash is taken to find the entry with the name."
  },
  {
   "property": "C72",
   "status": "partial",
   "theorems": [
    "Verif.Cpu.cpu_exact",
    "Verif.Cpu.padding_exact",
    "Verif.Cpu.known_iff",
    "Verif.Cpu.base_enabled",
    "Verif.Cpu.later_has_more",
    "Verif.Cpu.settings_kept",
    "Verif.Cpu.all_enabled",
    "Verif.Cpu.unknown_reported_partial",
    "Verif.Cpu.long_word_ignored",
    "Verif.Cpu.number_exact_partial",
    "Verif.Cpu.large_number_overflows",
    "Verif.Cpu.number_taken_for_386",
    "Verif.Cpu.bits_exact",
    "Verif.Cpu.mode_valid",
    "Verif.Cpu.default_rel_exact"
   ],
   "note": "Features, padding, modes and the table of feature sets are proved for every history.  Fails for words of more than 15 characters (ignored without a report: long_word_ignored), for numbers from 2^33 on (buffer overflow: large_number_overflows) and for some between 2^32 and 2^33 (number_taken_for_386)."
  },
  {
   "property": "C73",
   "status": "partial",
   "theorems": [
    "Verif.Match.line_starts",
    "Verif.Match.line_length_partial",
    "Verif.Match.line_jump_length",
    "Verif.Match.line_far_length",
    "Verif.Match.odd_mov_shorter",
    "Verif.Match.strange_size_internal"
   ],
   "note": "For every line with a name of the x86 table (Line), whatever is made of it is a proper start for the computation of lengths, and so it is written as long as it was counted; relative and far jumps likewise. Left out: MOV of one register to another with a32 in 64-bit mode (OddMov), for which it is false: six bytes are counted and two are written (odd_mov_shorter), which ends in an internal error. A line whose bytes are never counted is not covered: an odd size word on a displacement, as in mov eax, [tword ebx], ends the counting in an internal error (strange_size_internal)."
  },
  {
   "property": "C74",
   "status": "partial",
   "theorems": [
    "Verif.Coff.sections_read_partial",
    "Verif.Coff.long_name_lost",
    "Verif.Coff.slash_name_lost",
    "Verif.Coff.bss_data_lost",
    "Verif.Coff.large_alignment_lost",
    "Verif.Coff.many_relocations_lost"
   ],
   "note": "Proved for every list of sections that fits the format (files below 4 GiB).  Excluded, and proved to fail: names of more than eight bytes in plain COFF, short names that begin with a slash in win32 and win64, data in uninitialized sections, alignments of more than 8192, and 65536 relocations or more in plain COFF."
  },
  {
   "property": "C75",
   "status": "partial",
   "theorems": [
    "Verif.Coff.symbols_read_partial",
    "Verif.Coff.no_errors",
    "Verif.Coff.negative_equ_lost",
    "Verif.Coff.prefix_on_sections"
   ],
   "note": "Proved for all symbols whose values fit.  Fails for negative EQUs, which are written as 0 (proved).  The prefix is also put before .file and section symbols (proved; the theorem says so)."
  },
  {
   "property": "C76",
   "status": "partial",
   "theorems": [
    "Verif.Coff.references_linked_partial",
    "Verif.Coff.win64_named",
    "Verif.Coff.refused_iff",
    "Verif.Coff.word_reference_wide",
    "Verif.Coff.wide_imagebase_wrong"
   ],
   "note": "Proved for win32, win64 and 32-bit plain COFF with the formulas of the PE/COFF specification (for plain COFF those of System V).  Excluded, and proved to fail: 8- and 16-bit references in 32-bit objects, which get a 32-bit relocation, and 64-bit references WRT ..imagebase."
  },
  {
   "property": "C77",
   "status": "partial",
   "theorems": [
    "Verif.Pp.look_exact",
    "Verif.Pp.blocks_executed_partial",
    "Verif.Pp.orphan_fatal",
    "Verif.Pp.unclosed_fatal_partial",
    "Verif.Pp.unclosed_silent",
    "Verif.Pp.elif_error_silent",
    "Verif.Pp.second_else_assembled",
    "Verif.Pp.elif_after_else_assembled",
    "Verif.Pp.skipped_else_assembled",
    "Verif.Pp.rep_count_truncated",
    "Verif.Pp.exitrep_still_evaluates",
    "Verif.Pp.unknown_word_opens_rep",
    "Verif.Pp.endm_in_rep_crashes"
   ],
   "note": "Proved for all properly nested sources in one file, with conditions, counts and single-line macros arbitrary functions; blocks_executed_partial says that every run ends and gives the meaning defined in Verif/Pp/Spec.lean.  Not in it: %include, %clear, sources with errors in conditions and counts, words that are no directives.  Fails (proved) for conditionals not closed in a skipped part, errors after %elif, a second %else, counts from 2^31 on."
  },
  {
   "property": "C78",
   "status": "partial",
   "theorems": [
    "Verif.Pp.blocks_executed_partial",
    "Verif.Pp.params_given",
    "Verif.Pp.label_call",
    "Verif.Pp.zeros_replaced",
    "Verif.Pp.call_numbered",
    "Verif.Pp.call_numbers_fresh",
    "Verif.Pp.endm_ends_outer",
    "Verif.Pp.endm_breaks_later",
    "Verif.Pp.unknown_word_opens_macro",
    "Verif.Pp.clear_in_macro_crashes"
   ],
   "note": "The same theorem covers macros: definitions, calls, defaults and labels.  A macro defined within a block has to end in %endmacro: with %endm it ends the outer one (proved).  Unknown words in a definition may count as %macro (proved)."
  },
  {
   "property": "C79",
   "status": "partial",
   "theorems": [
    "Verif.Pp.arguments_read",
    "Verif.Pp.greedy_argument",
    "Verif.Pp.call_parameters",
    "Verif.Pp.references_replaced",
    "Verif.Pp.own_names_apart",
    "Verif.Pp.condition_codes",
    "Verif.Pp.range_partial",
    "Verif.Pp.pasted",
    "Verif.Pp.paste_text",
    "Verif.Pp.range_rotated_wrong",
    "Verif.Pp.range_rotated_missing",
    "Verif.Pp.range_from_zero",
    "Verif.Pp.missing_condition_crashes",
    "Verif.Pp.braced_condition_refused",
    "Verif.Pp.three_not_pasted"
   ],
   "note": "Proved except: %a:b is right only if the list is not rotated (wrong order and missing arguments otherwise, proved); a condition code in braces is refused and a missing one crashes (proved); of three identifiers only two become one (proved)."
  },
  {
   "property": "C80",
   "status": "proved",
   "theorems": [
    "Verif.Pp.line_passed",
    "Verif.Pp.words_whole"
   ],
   "note": "For lines in which no token is an environment variable or a name local to a context, which detoken replaces."
  },
  {
   "property": "C81",
   "status": "partial",
   "theorems": [
    "Verif.Pp.smacros_expanded_partial",
    "Verif.Pp.meaning_unique",
    "Verif.Pp.plain_ends",
    "Verif.Pp.plain_expanded_partial",
    "Verif.Pp.names_apart",
    "Verif.Pp.SSample.inner_call_kept",
    "Verif.Pp.SSample.braces_reported",
    "Verif.Pp.SSample.opened_elsewhere_freed",
    "Verif.Pp.SSample.unclosed_reported",
    "Verif.Pp.SSample.count_reported",
    "Verif.Pp.SSample.joined_for_ever"
   ],
   "note": "Proved for every line that has a meaning under Verif/Pp/SmacSpec.lean: all calls are whole in the body they stand in, and only a last argument is in braces.  Macros without parameters always end (plain_ends).  Fails (proved): %define aa a %+ a never ends; a call opened in another macro reads a freed token; f(f(1)) keeps the inner call; braces around an argument that is not the last are reported.  Not modelled: __FILE__ and __LINE__."
  },
  {
   "property": "C82",
   "status": "partial",
   "theorems": [
    "Verif.Unwind.unwind_read_partial",
    "Verif.Unwind.unwind_accepted",
    "Verif.Unwind.outside_reported",
    "Verif.Unwind.nested_reported",
    "Verif.Unwind.end_reported",
    "Verif.Unwind.entries_point_partial",
    "Verif.Unwind.entry_misses",
    "Verif.Unwind.large_truncated",
    "Verif.Unwind.kind_ignored",
    "Verif.Unwind.first_frame_lost"
   ],
   "note": "Proved for sizes and offsets below 2^32, and for a section .xdata that holds nothing else.  Fails (proved): an allocation from 2^32 on is cut off with a warning only; the kind of register is not looked at; of two frames the first is lost; behind other data in .xdata the entry refers to the padding.  Offsets are known numbers; offsets that depend on the layout are not modelled."
  },
  {
   "property": "C83",
   "status": "partial",
   "theorems": [
    "Verif.Macho.sections_read_partial",
    "Verif.Macho.versions_read",
    "Verif.Macho.literals_lost",
    "Verif.Macho.alignment_lost",
    "Verif.Macho.segment_misplaced"
   ],
   "note": "Proved for up to 255 sections, of types that are even or zero-filled without alignment.  Fails (proved): the contents of sections of odd types (.literal4, .mod_init_func) are not written and the header points to the start of the file; the alignment of zero-filled sections is not written; without symbols the position of the segment is wrong by 24."
  },
  {
   "property": "C84",
   "status": "partial",
   "theorems": [
    "Verif.Macho.symbols_read_partial",
    "Verif.Macho.unknown_reported",
    "Verif.Macho.unknown_size_reported",
    "Verif.Macho.negative_lost",
    "Verif.Macho.here_crashes"
   ],
   "note": "Proved for EQUs that are not negative.  Fails (proved): a negative EQU gets the value 0; a reference to $ in macho64 dereferences a null pointer."
  },
  {
   "property": "C85",
   "status": "partial",
   "theorems": [
    "Verif.Macho.references_linked_partial",
    "Verif.Macho.relative_off",
    "Verif.Macho.relative_wrong",
    "Verif.Macho.unsupported_reported"
   ],
   "note": "Proved for macho64 (relative fields of 32 bits) and for addresses in macho32.  Fails (proved): each relative reference in macho32 comes out too large by the address of its section in the file, which is never 0 for the code."
  },
  {
   "property": "C86",
   "status": "partial",
   "theorems": [
    "Verif.Listing.listing_read_partial",
    "Verif.Listing.continued_address_wrong",
    "Verif.Listing.source_dropped",
    "Verif.Listing.gap_unset",
    "Verif.Listing.stale_mark",
    "Verif.Listing.marks_stuck"
   ],
   "note": "Proved for lines with at most one bytecode that has bytes or reserves space, if every relocation belongs to a listed value.  Fails (proved): rows that continue show the address of the first; a line whose code has no bytes is missing; with times 0 a variable is read that was not set; of several bytecodes in a line the marks of the first are used for all; a relocation that is not listed hides all later ones."
  },
  {
   "property": "C87",
   "status": "partial",
   "theorems": [
    "Verif.Nasm.labels_meant",
    "Verif.Nasm.code_after_absolute_reported",
    "Verif.Nasm.sample_ok",
    "Verif.Nasm.forced_digit_witness",
    "Verif.Nasm.forced_in_directive_witness",
    "Verif.Nasm.at_in_directive_witness",
    "Verif.Nasm.local_in_directive_witness",
    "Verif.Nasm.absolute_string_witness",
    "Verif.Nasm.at_at_witness"
   ],
   "note": "Proved for all programs whose names have one of the documented forms.  Fails (proved): a forced name of several digits is a number; in the argument of absolute a forced name in an expression keeps its dollar sign, a name that starts with @ loses it, and a local name is not in the scope of the last label; after absolute with a string labels are lost without a report; names that start with @@ are local."
  },
  {
   "property": "C88",
   "status": "partial",
   "theorems": [
    "Verif.Lc3b.assembled_partial",
    "Verif.Lc3b.warned_partial",
    "Verif.Lc3b.far_partial",
    "Verif.Lc3b.offset_can_be_dropped",
    "Verif.Lc3b.offset_can_change_sign",
    "Verif.Lc3b.count_can_be_negative",
    "Verif.Lc3b.far_can_be_assembled",
    "Verif.Lc3b.listing_can_differ",
    "Verif.Lc3b.br_can_be_nothing"
   ],
   "note": "Proved: all instructions with values in range, in any number of copies, against an independent decoder; exactly which numbers are warned about; which jumps are refused.  Fails (proved): odd offsets are rounded, offsets above the range of the machine and negative counts are taken in silence, jumps beyond the reach but within twice of it are assembled to another place with only a warning, the bytes of a jump change when they are asked for again (for the listing), and br without flags never jumps."
  },
  {
   "property": "C89",
   "status": "partial",
   "theorems": [
    "Verif.Xdf.made",
    "Verif.Xdf.sections_read_partial",
    "Verif.Xdf.symbols_read_partial",
    "Verif.Xdf.references_linked_partial",
    "Verif.Xdf.sample_ok",
    "Verif.Xdf.equ_lost",
    "Verif.Xdf.bss_data_lost",
    "Verif.Xdf.align_lost",
    "Verif.Xdf.here_ends",
    "Verif.Xdf.relative_wrt_lost",
    "Verif.Xdf.common_error"
   ],
   "note": "Proved for EQUs and addresses that are numbers of the width of their fields, alignments below 65536, data only in sections that keep it, and no WRT, SEG or shift in relative values.  Fails (proved): a negative EQU becomes 0 and a long one is cut, data in a bss section is lost, an alignment of 65536 becomes 0, a reference to $ ends the program with an internal error, a relative value with WRT is not relative any more."
  },
  {
   "property": "C90",
   "status": "partial",
   "theorems": [
    "Verif.Rdf.made",
    "Verif.Rdf.file_read_partial",
    "Verif.Rdf.left_out_reported",
    "Verif.Rdf.common_reported",
    "Verif.Rdf.references_linked_partial",
    "Verif.Rdf.sample_ok",
    "Verif.Rdf.relative_lost",
    "Verif.Rdf.segment_wrong",
    "Verif.Rdf.shift_lost",
    "Verif.Rdf.global_extern_ends",
    "Verif.Rdf.bss_unplaced",
    "Verif.Rdf.many_sections"
   ],
   "note": "Proved for up to 64 sections, names within the limits, symbols declared in one way, and references without shifts, where a relative one is to another file or to or from the start of a section, and SEG is of a symbol elsewhere or at the start.  Fails (proved): a relative reference to a label in another section loses the offset of the label, SEG of a label has its offset added, shifts are dropped, a symbol that is both external and global ends the program, labels of uninitialized data are in a segment that the file does not have unless it is the third, and section 64 is taken for section 0."
  },
  {
   "property": "C91",
   "status": "partial",
   "theorems": [
    "Verif.Stabs.made",
    "Verif.Stabs.header_read_partial",
    "Verif.Stabs.functions_read_partial",
    "Verif.Stabs.lines_read_partial",
    "Verif.Stabs.sample_ok",
    "Verif.Stabs.second_function_wrong",
    "Verif.Stabs.second_section_lost",
    "Verif.Stabs.first_line_lost",
    "Verif.Stabs.line_wraps",
    "Verif.Stabs.file_lost",
    "Verif.Stabs.no_text_crashes"
   ],
   "note": "Proved where .text is the first section: file, end and all functions; the lines of all addresses where moreover the section starts with a function, other functions are only behind bytecodes without bytes, and lines are below 65536.  Fails (proved): the lines of every later function are entered too late by the length of the bytecode before it, only the first section is looked at, the line a first function starts in the middle of is not entered, lines are cut to 16 bits, included files are lost, and a program without .text crashes the assembler."
  },
  {
   "property": "C92",
   "status": "proved",
   "theorems": [
    "Verif.Cmdline.items_read",
    "Verif.Cmdline.rest_files",
    "Verif.Cmdline.value_missing",
    "Verif.Cmdline.errors_told",
    "Verif.Cmdline.table_ok",
    "Verif.Cmdline.sample_ok",
    "Verif.Cmdline.one_dash_wrong",
    "Verif.Cmdline.text_dropped",
    "Verif.Cmdline.dash_value",
    "Verif.Cmdline.long_space"
   ],
   "note": "For all command lines in these forms and all tables; the table of yasm is one of them.  Outside of the documented forms (proved): long names with one dash, which the code means to allow, are mostly taken for a letter; text behind a letter that takes no value and the value of a long option that takes none are dropped; a value that is just a dash cannot stand for itself; a long option has no value behind a space."
  },
  {
   "property": "C93",
   "status": "partial",
   "theorems": [
    "Verif.Lines.lines_read_partial",
    "Verif.Lines.cpp_lines_read_partial",
    "Verif.Lines.cpp_hangs",
    "Verif.Lines.nasm_lines_read_partial",
    "Verif.Lines.sample_plain",
    "Verif.Lines.nasmSample_ok",
    "Verif.Lines.return_cuts",
    "Verif.Lines.zero_joins",
    "Verif.Lines.ctrlZ_cuts",
    "Verif.Lines.backslash_left"
   ],
   "note": "Raw, GAS and NASM: for all files of lines of any length without CR or zero characters within (NASM: also no ^Z, and no backslash left at the end).  CPP: up to 509 characters; from 511 on it never ends (proved: cpp_hangs).  Proved failures: CR within a line hides the rest, a zero character joins two lines, ^Z hides the rest of its line."
  },
  {
   "property": "C94",
   "status": "partial",
   "theorems": [
    "Verif.Gas.program_assembled_partial",
    "Verif.Gas.stray_told_partial",
    "Verif.Gas.unclosed_rept_told",
    "Verif.Gas.demo_total",
    "Verif.Gas.sample_ok",
    "Verif.Gas.elseif_ignored",
    "Verif.Gas.elseif_crashes",
    "Verif.Gas.stray_endif_silent",
    "Verif.Gas.stray_else_skips",
    "Verif.Gas.unclosed_if_silent",
    "Verif.Gas.second_else_assembled",
    "Verif.Gas.macro_not_redefined",
    "Verif.Gas.recursion_endless"
   ],
   "note": "Proved for all programs of .if, .else, .endif, .rept and .set, and all meanings of conditions.  The property fails (proved): .elseif is never assembled after a false condition and is a failed assertion after a true one; after an .else the depth is one too high, so stray directives are accepted; an open .if at the end is not reported; a macro that calls itself under a condition never ends."
  },
  {
   "property": "C95",
   "status": "partial",
   "theorems": [
    "Verif.Comment.comments_removed_partial",
    "Verif.Comment.file_cleaned_partial",
    "Verif.Comment.string_kept",
    "Verif.Comment.sample_ok",
    "Verif.Comment.hash_keeps_open",
    "Verif.Comment.after_string_kept",
    "Verif.Comment.second_string_lost"
   ],
   "note": "For all files without quotes and without lines that start with # or //; lines with a string before any comment are left as they are.  The property fails (proved): a line that starts with # within a comment hides the end of the comment; comments behind a string are left in; behind a comment, /* within a string opens one."
  },
  {
   "property": "C96",
   "status": "partial",
   "theorems": [
    "Verif.Param.line_expanded_partial",
    "Verif.Param.text_kept",
    "Verif.Param.body_ok",
    "Verif.Param.sample_ok",
    "Verif.Param.separator_kept",
    "Verif.Param.expression_split",
    "Verif.Param.blank_replaced"
   ],
   "note": "For all macros, calls and lines without backslashes other than those of references, and arguments without white space.  The property fails (proved): the separator of GAS is left in the line, arguments with white space are split, and white space between a backslash and a name is replaced instead of the backslash."
  },
  {
   "property": "C97",
   "status": "partial",
   "theorems": [
    "Verif.Param.values_substituted_partial",
    "Verif.Param.line_kept",
    "Verif.Param.line_ok",
    "Verif.Param.string_changed",
    "Verif.Param.suffix_replaced"
   ],
   "note": "For all symbols, values and lines of words, decimal numbers and other characters.  The property fails (proved): words in strings are replaced too, and so are letters right after a decimal number.  Evaluating the values is not modelled; hexadecimal numbers are outside of the theorem."
  },
  {
   "property": "C98",
   "status": "partial",
   "theorems": [
    "Verif.Cpp.options_passed_partial",
    "Verif.Cpp.fits",
    "Verif.Cpp.refused_iff",
    "Verif.Cpp.cmdline_ok",
    "Verif.Cpp.name_split",
    "Verif.Cpp.command_run"
   ],
   "note": "For all options and names without characters that mean something to the shell; the limits for all names.  The property fails (proved): nothing is quoted, so a name with a blank is two arguments, and what is behind a semicolon is run as a command."
  },
  {
   "property": "C99",
   "status": "partial",
   "theorems": [
    "Verif.Cpp.files_told_partial",
    "Verif.Cpp.rule_ok",
    "Verif.Cpp.continuation_told",
    "Verif.Cpp.source_told",
    "Verif.Cpp.no_output_endless",
    "Verif.Cpp.long_name_cut"
   ],
   "note": "For all rules on one line.  The property fails (proved) for rules on more than one line, which C preprocessors write when the line gets long: the backslash is told as a file, or the source is; without any output there is no end."
  },
  {
   "property": "C100",
   "status": "partial",
   "theorems": [
    "Verif.Cpp.rule_read_partial",
    "Verif.Cpp.buffer_enough",
    "Verif.Cpp.dep_ok",
    "Verif.Cpp.blank_name_split"
   ],
   "note": "For all targets, sources and files without blanks, colons and backslashes in what is written.  The property fails (proved): names are not quoted, so a name with a blank is read as two."
  },
  {
   "property": "C101",
   "status": "proved",
   "theorems": [
    "Verif.Cstr.compared",
    "Verif.Cstr.compared_up_to",
    "Verif.Cstr.compare_ok"
   ],
   "note": "For the functions of libyasm itself, which are used where the C library has none; tolower is that of the C locale."
  },
  {
   "property": "C102",
   "status": "proved",
   "theorems": [
    "Verif.Outname.replaced",
    "Verif.Outname.removed",
    "Verif.Outname.added",
    "Verif.Outname.default_used",
    "Verif.Outname.source_safe",
    "Verif.Outname.within",
    "Verif.Outname.told_iff",
    "Verif.Outname.names_ok",
    "Verif.Outname.empty_name"
   ],
   "note": "For all names and extensions but `out`, which no object format has.  Found on the way: a source named `.asm` gets an empty output name for a format without an extension (`empty_name`)."
  },
  {
   "property": "C103",
   "status": "proved",
   "theorems": [
    "Verif.Warnopt.last_counts",
    "Verif.Warnopt.warning_kept_iff",
    "Verif.Warnopt.werror_iff",
    "Verif.Warnopt.opts_ok",
    "Verif.Warnopt.general_off"
   ],
   "note": "For all sequences of options.  Noted on the way: after -w no option turns the general warnings on again, as they have no name (`general_off`)."
  },
  {
   "property": "C104",
   "status": "partial",
   "theorems": [
    "Verif.File.first_place_opened_partial",
    "Verif.File.include_ok",
    "Verif.File.base_ok",
    "Verif.File.backslash_not_searched",
    "Verif.File.empty_path_read"
   ],
   "note": "For all disks without symbolic links, and all paths that are combined rightly (C38).  The property fails (proved): a path that ends in a backslash is not searched, and for an empty path the byte before the string is read."
  },
  {
   "property": "C105",
   "status": "partial",
   "theorems": [
    "Verif.Mkpath.dirs_made_partial",
    "Verif.Mkpath.path_ok",
    "Verif.Mkpath.root_not_made",
    "Verif.Mkpath.file_not_told"
   ],
   "note": "For all disks and all paths from the current directory without dots and doubled slashes.  The property fails (proved): for every path from the root nothing is made, and a file in the place of a directory is not told."
  }
 ]
}