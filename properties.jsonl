{"id": "C01", "title": "Line map lookup is the last mapping at or before the line", "statement": "After any history of line-map operations in which mappings are made at the current line (the only way the assembler's parsers make them), looking up a virtual line returns the file name and the file line base+increment*(line-start) of the most recent mapping in force for that line, i.e. the last-set mapping whose start is the greatest start <= the line.", "quantifier": "every sequence of set / goto-next / add-source operations and every line that has been reached", "why_tests_cant": "the lookup is a binary search over a vector rewritten in place by set; correctness depends on the sortedness invariant over every history and on every vector size", "anchors": ["libyasm/linemap.c: yasm_linemap_set, yasm_linemap_lookup, yasm_linemap_goto_next, yasm_linemap_create"]}
{"id": "C02", "title": "Poking a line leaves the mapping of later lines as it was", "statement": "yasm_linemap_poke maps exactly one virtual line to the given file position and the lines after it continue the mapping in force before the poke (linemap.h: 'A new virtual line is created ... and the mapping is reset to the original').", "quantifier": "every line-map history and every poke", "why_tests_cant": "depends on the mapping state left by arbitrary earlier operations", "anchors": ["libyasm/linemap.c: yasm_linemap_poke", "libyasm/linemap.h: yasm_linemap_poke"]}
{"id": "C03", "title": "Diagnostics are collected in line order and counted exactly", "statement": "After any history of error and warning reports, diagnostics are kept in nondecreasing line order, reports on the same line keep the order in which they were made, and no report is lost or moved to another line, except that a parser error may be superseded by a later error when that is asked for.", "quantifier": "every sequence of set-error / set-warning / propagate events over all lines", "why_tests_cant": "insertion starts from a cached previous position; order and completeness depend on the whole history", "anchors": ["libyasm/errwarn.c: errwarn_data_new, yasm_errwarn_propagate, yasm_errwarns_num_errors, yasm_errwarns_output_all"]}
{"id": "C04", "title": "First error wins until it is fetched", "statement": "Between two clears/fetches of the error indicator, the first error set is the one that is reported; later set-error calls change neither its class nor its message; and the warning queue returns enabled warnings exactly once each, in FIFO order.", "quantifier": "every sequence of error_set, error_clear, error_fetch, warn_set, warn_fetch, warn_enable, warn_disable", "why_tests_cant": "a property of every interleaving of library calls", "anchors": ["libyasm/errwarn.c: yasm_error_set_va, yasm_error_fetch, yasm_warn_set_va, yasm_warn_fetch, yasm_warn_enable, yasm_warn_disable, yasm_error_matches"]}
{"id": "C05", "title": "The hash trie is a map", "statement": "HAMT_insert / HAMT_search behave as a finite map on strings (up to the table's case-sensitivity): a search returns the data of the last effective insertion of an equal key, and nothing if no equal key was inserted; inserting an existing key either replaces (replace set) or keeps the old data.", "quantifier": "every sequence of insertions of arbitrary strings and every searched string, for every outcome of the hash functions", "why_tests_cant": "the trie shape depends on 32-bit hash chunks and rehashing at every depth; collisions at depth are practically unreachable by tests", "anchors": ["libyasm/hamt.c: HAMT_insert, HAMT_search, HAMT_create"]}
{"id": "C06", "title": "Hash trie traversal visits each key once, in insertion order", "statement": "HAMT_traverse calls its function on each stored datum exactly once in order of first insertion and stops at the first nonzero return.", "quantifier": "every insertion history and every callback", "why_tests_cant": "history property", "anchors": ["libyasm/hamt.c: HAMT_traverse, HAMT_insert"]}
{"id": "C07", "title": "Hash trie insertion terminates", "statement": "HAMT_insert returns for every string and every table.", "quantifier": "every pair of distinct strings", "why_tests_cant": "requires reasoning about collisions of the hash and every rehash level simultaneously; no test can find or exclude such strings", "anchors": ["libyasm/hamt.c: HAMT_insert, HashKey, ReHashKey"]}
{"id": "C08", "title": "Interval tree stays a balanced search tree", "statement": "After any sequence of insertions the interval tree is ordered by low endpoint, satisfies the red-black colouring and black-height rules (so depth is at most 2*log2(n+1)), each node caches the largest high endpoint of its subtree, and its content is exactly the inserted intervals.", "quantifier": "every sequence of IT_insert calls", "why_tests_cant": "invariant over all insertion orders and tree sizes", "anchors": ["libyasm/inttree.c: IT_insert, TreeInsertHelp, LeftRotate, RightRotate, FixUpMaxHigh"]}
{"id": "C09", "title": "Interval query reports exactly the overlapping intervals", "statement": "IT_enumerate(low, high) calls its callback exactly once for each stored interval that overlaps [low, high] and for no other.", "quantifier": "every tree reachable by insertions and every query interval", "why_tests_cant": "pruning by cached maxima must be sound for every tree; a missed overlap silently miscompiles jumps", "anchors": ["libyasm/inttree.c: IT_enumerate, Overlap"]}
{"id": "C10", "title": "Integer expressions are computed in 256-bit two's complement", "statement": "yasm_intnum_calc computes +,-,*,/,%,&,|,^,~,<<,>>, logical and comparison operators as the exact mathematical operation on the operand values reduced to 256-bit two's complement, for every operand created by the library.", "quantifier": "every operator and every pair of operand values", "why_tests_cant": "2^512 operand pairs per operator; representation switches between machine long and bit vector", "anchors": ["libyasm/intnum.c: yasm_intnum_calc, intnum_tobv, intnum_frombv"]}
{"id": "C11", "title": "Division by zero is reported and leaves the operand alone", "statement": "For the division and modulus operators a zero divisor (in any representation) returns an error and does not change the accumulator; otherwise no error is returned, and quotient*divisor+remainder equals the dividend with truncation toward zero.", "quantifier": "every accumulator and divisor value, all four division operators", "why_tests_cant": "all values", "anchors": ["libyasm/intnum.c: yasm_intnum_calc", "libyasm/bitvect.c: BitVector_Divide, BitVector_Div_Pos"]}
{"id": "C12", "title": "Integer comparison is the signed order on values", "statement": "yasm_intnum_compare and the comparison operators agree with the order of the integer values denoted, independently of the representation, and yasm_intnum_sign/is_zero/is_pos1/is_neg1 agree with it.", "quantifier": "every pair of values in every representation", "why_tests_cant": "all values and mixed representations", "anchors": ["libyasm/intnum.c: yasm_intnum_compare, yasm_intnum_sign, yasm_intnum_is_zero, yasm_intnum_is_pos1, yasm_intnum_is_neg1"]}
{"id": "C13", "title": "Narrowing to a C integer saturates", "statement": "yasm_intnum_get_uint returns 0 for negatives, the value if it fits in 32 bits and the maximum otherwise; yasm_intnum_get_int returns the value when it is representable and the nearest limit otherwise.", "quantifier": "every integer value", "why_tests_cant": "boundary cases of a 256-bit domain", "anchors": ["libyasm/intnum.c: yasm_intnum_get_uint, yasm_intnum_get_int"]}
{"id": "C14", "title": "Emitting an integer writes exactly its field", "statement": "yasm_intnum_get_sized writes the low `valsize` bits of the (right-shifted) value into bits [lshift, lshift+valsize) of the destination, little or big endian as asked, leaves every other destination bit unchanged and warns exactly when the value does not fit the field.", "quantifier": "every value, destination content, size, shift and endianness", "why_tests_cant": "combinatorial domain of values x widths x shifts x destination bits", "anchors": ["libyasm/intnum.c: yasm_intnum_get_sized, yasm_intnum_check_size"]}
{"id": "C15", "title": "Size checks accept exactly the representable values", "statement": "yasm_intnum_check_size and yasm_intnum_in_range accept exactly the values in the signed, unsigned, or combined range of the given bit width (resp. the closed interval).", "quantifier": "every value, width, shift and signedness", "why_tests_cant": "off-by-one at 2^(n-1), 2^n boundaries for all n", "anchors": ["libyasm/intnum.c: yasm_intnum_check_size, yasm_intnum_in_range"]}
{"id": "C16", "title": "LEB128 encoding round-trips and has the announced size", "statement": "Decoding (per the DWARF definition) the bytes written by yasm_intnum_get_leb128 / get_uleb128/sleb128 gives back the value, the number of bytes written equals yasm_intnum_size_leb128, and yasm_intnum_create_leb128 inverts it.", "quantifier": "every value, signed and unsigned", "why_tests_cant": "unbounded length encodings; boundary at each 7-bit step", "anchors": ["libyasm/intnum.c: yasm_intnum_get_leb128, get_leb128, yasm_intnum_size_leb128, yasm_intnum_create_leb128, yasm_get_sleb128, yasm_get_uleb128, yasm_size_sleb128, yasm_size_uleb128"]}
{"id": "C17", "title": "Numeric literals denote their value", "statement": "Reading a binary, octal, decimal or hexadecimal digit string (with _ separators where accepted) gives the number it denotes, and overflow beyond 256 bits is diagnosed.", "quantifier": "every digit string of every length", "why_tests_cant": "unbounded strings; word boundary handling in octal", "anchors": ["libyasm/intnum.c: yasm_intnum_create_dec, yasm_intnum_create_hex, yasm_intnum_create_oct, yasm_intnum_create_bin", "libyasm/bitvect.c: BitVector_from_Hex, BitVector_from_Oct, BitVector_from_Bin, BitVector_from_Dec_static"]}
{"id": "C18", "title": "Character constants pack their bytes in order", "statement": "A NASM character constant has the value sum of c_i*256^i, a TASM one the big-endian value, for all lengths that fit in 256 bits; longer ones are diagnosed.", "quantifier": "every string", "why_tests_cant": "unbounded strings", "anchors": ["libyasm/intnum.c: yasm_intnum_create_charconst_nasm, yasm_intnum_create_charconst_tasm"]}
{"id": "C19", "title": "Expression simplification preserves value", "statement": "Building and simplifying an expression (levelling, constant folding, negation distribution, identity removal, EQU expansion) never changes the value it denotes under any assignment of values to its symbols, provided no error is reported.", "quantifier": "every expression tree and every environment", "why_tests_cant": "unbounded trees; rewriting rules interact", "anchors": ["libyasm/expr.c: yasm_expr_create, expr_level_op, expr_level_tree, expr_xform_neg, expr_simplify_identity, expr_order_terms, yasm_expr__level_tree"]}
{"id": "C20", "title": "Constant expressions simplify to one integer", "statement": "An expression all of whose leaves are integers and whose evaluation involves no division by zero simplifies to a single integer term equal to its value.", "quantifier": "every constant expression tree", "why_tests_cant": "unbounded trees", "anchors": ["libyasm/expr.c: expr_level_op, yasm_expr_get_intnum"]}
{"id": "C21", "title": "Circular EQU definitions are rejected and expansion terminates", "statement": "Expansion of EQU symbols terminates for every set of definitions, reports an error exactly when the expansion reaches a symbol that is being expanded, and otherwise leaves no EQU symbol in the result.", "quantifier": "every system of (mutually recursive) EQU definitions", "why_tests_cant": "all definition graphs", "anchors": ["libyasm/expr.c: expand_equ, expr_level_tree, yasm_expr__level_tree"]}
{"id": "C22", "title": "Simplification does not touch freed or stale terms", "statement": "Simplifying an expression never releases the same sub-expression twice.", "quantifier": "every expression tree", "why_tests_cant": "memory-safety over all shapes", "anchors": ["libyasm/expr.c: expr_level_op, expr_simplify_identity"]}
{"id": "C23", "title": "Term ordering is a stable sort by kind", "statement": "Ordering the terms of a commutative expression yields a permutation sorted by term kind that keeps equal kinds in order, leaving the value unchanged.", "quantifier": "every term list", "why_tests_cant": "all lengths/permutations; merge sort with natural runs", "anchors": ["libyasm/expr.c: expr_order_terms", "libyasm/mergesort.c: yasm__mergesort"]}
{"id": "C24", "title": "Symbol table rules: one definition per symbol", "statement": "After any sequence of define/declare/use operations a symbol has at most one definition, the first one; a second definition is reported as an error with the first defining line; lookups agree up to the table's case mode; and use creates at most one record per name.", "quantifier": "every history of symbol-table operations", "why_tests_cant": "history property over all names and interleavings", "anchors": ["libyasm/symrec.c: symtab_define, symtab_get_or_new, yasm_symtab_use, yasm_symtab_get, yasm_symtab_declare, yasm_symrec_declare"]}
{"id": "C25", "title": "Undefined symbols are all and only reported at the end of parsing", "statement": "At the end of parsing an error is reported for a symbol iff it was used, never defined or declared extern/common (and undefined symbols are not made extern); with undef_extern on, each such symbol becomes extern instead.", "quantifier": "every history of symbol operations", "why_tests_cant": "history property", "anchors": ["libyasm/symrec.c: yasm_symtab_parser_finalize, symtab_parser_finalize_checksym"]}
{"id": "C26", "title": "Declaration compatibility", "statement": "The declarations global, extern and common accumulate on a symbol only in permitted combinations, incompatible redeclarations are diagnosed and leave the visibility unchanged.", "quantifier": "every sequence of declarations and definitions of a symbol", "why_tests_cant": "all histories", "anchors": ["libyasm/symrec.c: yasm_symrec_declare"]}
{"id": "C27", "title": "Bytecodes are contiguous after layout", "statement": "After the optimizer returns without error, each bytecode's offset is the previous bytecode's offset plus its length times its repeat count, offset-setting bytecodes (align, org) included, the first at 0.", "quantifier": "every section and every bytecode mix", "why_tests_cant": "depends on every layout history of the optimizer", "anchors": ["libyasm/section.c: yasm_object_optimize, update_all_bc_offsets", "libyasm/bytecode.c: yasm_bc_next_offset, yasm_bc_calc_len"]}
{"id": "C28", "title": "Alignment pads minimally", "statement": "An align bytecode with a power-of-two boundary puts the next offset at the least multiple of the boundary not below its start; with a max-skip it inserts nothing if the padding would exceed max-skip; boundary 0 inserts nothing.", "quantifier": "every start offset, boundary and max-skip", "why_tests_cant": "all offsets", "anchors": ["libyasm/bc-align.c: bc_align_expand, bc_align_calc_len, bc_align_tobytes"]}
{"id": "C29", "title": "Org reaches its target or fails", "statement": "An org bytecode makes the next offset equal its target when the target is not behind, filling with the fill byte, and reports an overlap error otherwise.", "quantifier": "every start and target", "why_tests_cant": "all offsets", "anchors": ["libyasm/bc-org.c: bc_org_expand, bc_org_tobytes"]}
{"id": "C30", "title": "Emitted length equals computed length", "statement": "For data, reserve, align, org and incbin bytecodes the number of bytes produced equals the length used for layout, for every repeat count, so the writer never hits the 'written length does not match optimized length' check.", "quantifier": "every bytecode content and repeat count", "why_tests_cant": "all contents and sizes; padding of strings to element size", "anchors": ["libyasm/bytecode.c: yasm_bc_tobytes", "libyasm/bc-data.c: bc_data_calc_len, bc_data_tobytes, yasm_bc_create_data", "libyasm/bc-align.c", "libyasm/bc-org.c", "libyasm/bc-reserve.c", "libyasm/bc-incbin.c"]}
{"id": "C31", "title": "Data directives lay out their items in order", "statement": "The bytes of a data directive are the concatenation, in order, of each item encoded at the element size (strings zero-padded to a multiple of the element size, optional NUL appended).", "quantifier": "every list of data items, element size and append-zero flag", "why_tests_cant": "two-pass packing logic over arbitrary item lists", "anchors": ["libyasm/bc-data.c: yasm_bc_create_data, bc_data_tobytes"]}
{"id": "C32", "title": "Optimizer result: every jump fits", "statement": "When optimization finishes without error, every span-dependent bytecode left in its short form has its displacement, computed from the final offsets, within the thresholds of the short form.", "quantifier": "every program (any set of bytecodes, spans and dependencies)", "why_tests_cant": "fixed-point over cyclic dependencies; a miss silently produces a wrong branch target", "anchors": ["libyasm/section.c: yasm_object_optimize, optimize_term_expand, recalc_normal_span, check_cycle"]}
{"id": "C33", "title": "Optimizer terminates and only grows", "statement": "Optimization terminates for every program; the length of an instruction never shrinks during it (alignment padding may).", "quantifier": "every program", "why_tests_cant": "termination over all inputs", "anchors": ["libyasm/section.c: yasm_object_optimize"]}
{"id": "C34", "title": "Sections are found by name or created once", "statement": "yasm_object_get_general returns the existing section of that name or creates exactly one, initially with a single empty bytecode at offset 0; section names stay unique and sections keep creation order.", "quantifier": "every history of section requests", "why_tests_cant": "history property", "anchors": ["libyasm/section.c: yasm_object_get_general, yasm_object_find_general"]}
{"id": "C35", "title": "Value splitting preserves meaning", "statement": "Splitting an expression into absolute part, relative symbol, wrt, segment and shift parts preserves the value: absolute part + relative symbol (shifted, minus current position if curpos-relative) equals the original expression in every layout; what cannot be expressed is rejected.", "quantifier": "every expression and every assignment of symbol addresses", "why_tests_cant": "all expressions x all layouts", "anchors": ["libyasm/value.c: yasm_value_finalize, value_finalize_scan"]}
{"id": "C36", "title": "Floating literals: limits and rounding of conversion", "statement": "Conversion of the internal 80-bit format to 16/32/64/80-bit fields rounds to nearest (half up), yields infinity exactly on exponent overflow and reports under/overflow accordingly; the decimal tables hold the correctly rounded powers of ten.", "quantifier": "every internal floating value and each target format", "why_tests_cant": "2^96 internal values", "anchors": ["libyasm/floatnum.c: floatnum_get_common, yasm_floatnum_get_sized, POT_TableN, POT_TableP"]}
{"id": "C37", "title": "Associated data: last write wins, one slot per key", "statement": "yasm__assoc_data_add/get behave as a map from callback identity to data; adding over old data destroys the old data exactly once, and never the data being stored.", "quantifier": "every sequence of add/get", "why_tests_cant": "history property", "anchors": ["libyasm/assocdat.c: yasm__assoc_data_add, yasm__assoc_data_get, yasm__assoc_data_destroy"]}
{"id": "C38", "title": "Path splitting and combining", "statement": "Splitting a path gives a head and tail that recombine to an equivalent path; combining a relative path with a base never escapes to a different file than the textual concatenation with '.', '..' and duplicate slashes removed.", "quantifier": "every pair of paths", "why_tests_cant": "unbounded strings", "anchors": ["libyasm/file.c: yasm__splitpath_unix, yasm__combpath_unix"]}
{"id": "C39", "title": "String escapes decode", "statement": "yasm_unescape_cstring decodes each escape of a C string to its byte, never reads past the given length, never lengthens the string.", "quantifier": "every byte string", "why_tests_cant": "unbounded strings; index arithmetic at the end of buffer", "anchors": ["libyasm/file.c: yasm_unescape_cstring"]}
{"id": "C40", "title": "MD5 is independent of chunking", "statement": "The digest depends only on the concatenation of the data passed to update calls, not on how it was split.", "quantifier": "every split of every message", "why_tests_cant": "all splits", "anchors": ["libyasm/md5.c: yasm_md5_update, yasm_md5_final"]}
{"id": "C41", "title": "Source text per line", "statement": "The source text and bytecode recorded for a line are the last ones recorded while that line was current; lines with none are reported as such.", "quantifier": "every history of line-map operations and every line number >= 1", "why_tests_cant": "array growth and overwriting over arbitrary histories", "anchors": ["libyasm/linemap.c: yasm_linemap_add_source, yasm_linemap_get_source"]}
{"id": "C42", "title": "Error class matching", "statement": "Asking whether the pending error matches a class answers yes exactly when an error is pending and it is of that class or a subclass of it; asking about the general class tells whether any error is pending.", "quantifier": "every pending error class and every queried class", "why_tests_cant": "ranges over all bit masks; the documented meaning is about the whole class hierarchy", "anchors": ["libyasm/errwarn.c: yasm_error_matches", "libyasm/errwarn.h: yasm_error_class"]}
{"id": "C43", "title": "Bit-counting macro", "statement": "The BitCount macro, as its users mask it, yields the number of ones among the low 32 bits of the word.", "quantifier": "every 64-bit word", "why_tests_cant": "2^64 inputs", "anchors": ["util.h: BitCount, BC_COUNT, BC_MSK", "libyasm/hamt.c: HAMT_insert"]}
{"id": "C44", "title": "Reading a sized field", "statement": "yasm_intnum_create_sized gives the little-endian value of the bytes, sign-extended when asked, and what yasm_intnum_get_sized wrote into whole bytes is read back as the same number when it fits.", "quantifier": "every buffer of 1 to 32 bytes, signed or unsigned; longer buffers are diagnosed", "why_tests_cant": "2^256 buffers; sign extension depends on the length and the last byte", "anchors": ["libyasm/intnum.c: yasm_intnum_create_sized, yasm_intnum_get_sized"]}
{"id": "C45", "title": "Printed numbers read back", "statement": "yasm_intnum_get_str gives the decimal representation of a number, without leading zeros and with a minus sign exactly for negatives, and yasm_intnum_create_dec reads that string back as the same number without an error.", "quantifier": "every number the library computes (magnitudes up to 2^255)", "why_tests_cant": "2^256 values; the digits are produced in groups of nine by repeated division", "anchors": ["libyasm/intnum.c: yasm_intnum_get_str, yasm_intnum_create_dec", "libyasm/bitvect.c: BitVector_to_Dec, BitVector_from_Dec_static, BitVector_Div_Pos"]}
{"id": "C46", "title": "Code padding executes as no-ops", "statement": "The padding an align directive inserts into x86 code (16-, 32- or 64-bit mode, any no-op style, any length) is a sequence of instructions that change no register or memory; execution entering it reaches exactly the aligned address.", "quantifier": "every mode, no-op style, boundary, max-skip and start offset", "why_tests_cant": "Tests check a few padding lengths' bytes against a golden file; that every length decomposes into complete no-op instructions ending exactly at the boundary is a claim over all lengths.", "anchors": ["modules/arch/x86/x86arch.c: x86_get_fill", "libyasm/bc-align.c: bc_align_tobytes"]}
{"id": "C47", "title": "Repeat counts over labels are exact", "statement": "After optimization without a diagnostic, a bytecode whose repeat count (TIMES) is an expression over labels is repeated exactly as often as that expression says when evaluated at the final offsets.", "quantifier": "every program, every expression over label distances, every instruction set", "why_tests_cant": "The count depends on offsets that depend on the count and on every jump in between; tests check a few boot-sector paddings.", "anchors": ["libyasm/section.c: yasm_object_optimize, recalc_normal_span", "libyasm/bytecode.c: yasm_bc_calc_len, yasm_bc_expand"]}
{"id": "C48", "title": "Final forms and lengths agree", "statement": "After optimization without a diagnostic, every x86 jump and instruction still has the opcodes, prefixes and operands it was given, its length is exactly the length of the form chosen, and forms forced by the programmer (short, near) are kept.", "quantifier": "every program and every order of expansions", "why_tests_cant": "A length that is one off shifts every later label; the error only shows for particular sequences of expansions.", "anchors": ["modules/arch/x86/x86bc.c: x86_bc_jmp_calc_len, x86_bc_jmp_expand, x86_bc_insn_calc_len, x86_bc_insn_expand", "libyasm/section.c: yasm_object_optimize"]}
{"id": "C49", "title": "A directive runs the handler with priority", "statement": "Using a directive from a parser runs the handler of the first registered entry whose parser keyword and name match regardless of letter case, the object format's entries taking priority over the debug format's, those over the architecture's and those over the built-in ones; if none matches, nothing runs and 1 is returned. A handler that requires an argument or an identifier is not run without one; an error is set instead.", "quantifier": "every combination of directive tables, every name, parser keyword and parameter list", "why_tests_cant": "Names collide across tables (.type, ident) and hash collisions depend on all names loaded before; tests use each directive with one object format.", "anchors": ["libyasm/section.c: directives_add, yasm_object_create, yasm_object_directive", "libyasm/valparam.c: yasm_call_directive", "libyasm/hamt.c: HAMT_insert, HAMT_search"]}
{"id": "C50", "title": "Directive parameters are handled in order", "statement": "yasm_dir_helper handles the parameters of a directive strictly left to right, each by the first qualifier that recognises it (name=value by a qualifier taking a value, a lone identifier by one taking none, letter case and the identifier prefix ignored), otherwise by the fallback; it stops with -1 at the first failure, and otherwise returns 1 exactly if some parameter was used.", "quantifier": "every list of qualifiers, every helper behaviour, every parameter list", "why_tests_cant": "Which helper runs depends on the order of two lists and the kinds of their entries; tests cover the qualifiers of a few section directives.", "anchors": ["libyasm/valparam.c: yasm_dir_helper, yasm_vp_id, yasm_dir_helper_flag_or, yasm_dir_helper_flag_and, yasm_dir_helper_flag_set"]}
{"id": "C51", "title": "Decimal literals are emitted as the nearest number", "statement": "A decimal floating literal is emitted, in the size asked for, as the number of that format nearest to its value, with its sign; a literal that is exactly a number of the format is emitted as that number; a literal beyond the format's range gives infinity with an overflow report, one below its normal range gives zero with an underflow report, and a zero literal gives a zero of its sign whatever its exponent.", "quantifier": "every literal (any number of digits before and after the point, any exponent in range) and each of the four sizes", "why_tests_cant": "Infinitely many literals; errors of a unit in the last place appear only near midpoints, for particular digit counts and exponents.", "anchors": ["libyasm/floatnum.c: yasm_floatnum_create, floatnum_mul, floatnum_normalize, floatnum_get_common, yasm_floatnum_get_sized, POT_TableN_Source, POT_TableP_Source"]}
{"id": "C52", "title": "The encoded memory operand is the address that was written", "statement": "If a memory operand is accepted, then a processor that decodes the emitted ModRM and SIB bytes, with the extension bits of the REX or VEX prefix and the displacement, computes the address the operand's expression denotes, for every value of the registers and symbols; there is a SIB byte exactly when ModRM announces one, as many displacement bytes as ModRM and the address size announce, and the displacement is shortened to one byte or dropped only if this does not change it; the bits of the other operand are left alone.", "quantifier": "every expression, register assignment, symbol table, operating mode, address size, displacement size, NOSPLIT and vector-index setting", "why_tests_cant": "Unboundedly many expressions normalise to each of thousands of register/scale/displacement combinations; a wrong exception (EBP, ESP, R12, R13, RIP) only shows for one of them.", "anchors": ["modules/arch/x86/x86expr.c: yasm_x86__expr_checkea, x86_expr_checkea_getregusage, x86_expr_checkea_distcheck_reg, x86_checkea_calc_displen", "modules/arch/x86/x86bc.c: yasm_x86__set_rex_from_reg"]}
{"id": "C53", "title": "Instructions come out as long as they were counted", "statement": "An x86 instruction, relative jump or far jump, after its length has been computed and it has been widened any number of times, is written (any number of times, for TIMES) as exactly as many bytes as the layout counted, whatever value output the object format uses, as long as that fills the bytes it is given; neither widening nor writing ends in an internal error.", "quantifier": "every instruction the parser can construct, every operand, mode, symbol table, history of widenings, repeat count and output function", "why_tests_cant": "Length and bytes are computed by different functions from state that both change; they disagree only for particular combinations of prefix, operand kind and history.", "anchors": ["modules/arch/x86/x86bc.c: x86_bc_insn_calc_len, x86_bc_insn_expand, x86_bc_insn_tobytes, x86_bc_jmp_calc_len, x86_bc_jmp_expand, x86_bc_jmp_tobytes, x86_bc_jmpfar_calc_len, x86_bc_jmpfar_tobytes", "libyasm/bytecode.c: yasm_bc_tobytes"]}
{"id": "C54", "title": "Relative jumps land on their targets", "statement": "Every copy of a relative jump, in its short or near form, goes to the target that was written, modulo what its displacement can express, and no warning is given if and only if every copy goes exactly there; the span given to the optimizer is exactly the distances the short form reaches.", "quantifier": "every target expression of ordinary operators, symbol table, layout, mode, history of widenings and repeat count, without relocation and in the flat binary format", "why_tests_cant": "The displacement depends on the target, the length of the form and the number of the copy; an off-by-one shows only at the ends of the range.", "anchors": ["modules/arch/x86/x86id.c: x86_finalize_jmp", "modules/arch/x86/x86bc.c: x86_bc_jmp_calc_len, x86_bc_jmp_expand, x86_bc_jmp_tobytes", "libyasm/value.c: yasm_value_set_curpos_rel, yasm_value_output_basic", "modules/objfmts/bin/bin-objfmt.c: bin_objfmt_output_value"]}
{"id": "C55", "title": "Prefixes say what the instruction asks for", "statement": "Every copy of an instruction with a VEX or XOP prefix has a prefix, in two bytes or three, that a processor reads as the opcode map, extra register, vector length, implied legacy prefix and register-extension bits asked for, directly followed by the opcode byte; in every other instruction the REX byte comes directly before the opcode, after all other prefixes, and only in 64-bit mode.", "quantifier": "every instruction table entry, register, history of widenings and repeat count", "why_tests_cant": "The prefix is merged in place, shortened when lengths are computed and written again for every copy; tests compare a few encodings, mostly single copies.", "anchors": ["modules/arch/x86/x86id.c: x86_id_insn_finalize", "modules/arch/x86/x86bc.c: x86_bc_insn_calc_len, x86_bc_insn_tobytes, x86_opcode_tobytes, x86_common_tobytes"]}
{"id": "C56", "title": "Operands are read back as they were written", "statement": "In every copy of an instruction the processor reads the memory operand as the address written (ModRM, SIB and displacement, relative to the end of that copy for RIP-relative operands) and the last bytes as the immediate; a far jump has its offset, then its segment; values that do not fit are reported.", "quantifier": "every instruction, operand expression, mode, register file, history, repeat count and output function that writes values", "why_tests_cant": "Copies after the first start from state changed by writing the one before; displacements near the end of their range and values of either sign must all be right.", "anchors": ["modules/arch/x86/x86bc.c: x86_bc_insn_tobytes, x86_bc_jmpfar_tobytes", "libyasm/bytecode.c: yasm_bc_tobytes", "modules/objfmts/bin/bin-objfmt.c: bin_objfmt_output_value"]}
{"id": "C57", "title": "The line table matches the code", "statement": "From the line number program written for a section a debugger reads one row for each place in the code that has a location (or, for the assembly source, one for each instruction that takes up room), with the address of that place, its file, line and column and the marks asked for (is_stmt, isa, discriminator, basic_block, prologue_end, epilogue_begin), and an end at the end of the section; the program is as long as counted.", "quantifier": "every section, list of loc directives with any options, layout of the code and address", "why_tests_cant": "The encoding chooses between special opcodes, const_add_pc and advance_pc by the differences of line and address; every combination of them, at every boundary, must come to the same table.", "anchors": ["modules/dbgfmts/dwarf2/dwarf2-line.c: dwarf2_dbgfmt_gen_line_op, dwarf2_dbgfmt_finalize_locs, dwarf2_generate_line_section, dwarf2_generate_line_bc, dwarf2_line_op_bc_tobytes, yasm_dwarf2__dir_loc"]}
{"id": "C58", "title": "Debug file numbers name the files", "statement": "After any sequence of file directives a file number stands for the directory and name last given for it; every source file has a number; and a debugger reads from the section header the same directories and files in order, the parameters the program is written for, and the program itself.", "quantifier": "every sequence of file directives and every table of directories and files", "why_tests_cant": "Directories are shared and numbers can be given in any order, with gaps; lengths are counted apart from the bytes they describe.", "anchors": ["modules/dbgfmts/dwarf2/dwarf2-line.c: dwarf2_dbgfmt_add_file, dwarf2_filename_equals, yasm_dwarf2__generate_line, dwarf2_spp_bc_tobytes", "modules/dbgfmts/dwarf2/dwarf2-dbgfmt.c: dwarf2_head_bc_tobytes"]}
{"id": "C59", "title": "Flat binary sections get the addresses asked for", "statement": "In the flat binary format every section gets a load address and a virtual address that are multiples of its alignment. A section that follows another starts at the first aligned address at or after its end, one with a start address at that address, the others one after the other from the origin in the default order. Unknown or circular follows are refused and nothing else is. Virtual addresses obey vstart, vfollows and valign in the same way.", "quantifier": "every list of sections with any lengths, alignments, start addresses and follow relations", "why_tests_cant": "The follow relations form arbitrary forests, built up one section at a time by moving whole groups, and the addresses depend on all of them.", "anchors": ["modules/objfmts/bin/bin-objfmt.c: bin_lma_create_group, find_group_by_name, find_group_by_section, group_assign_start_recurse, group_assign_vstart_recurse, bin_objfmt_align, bin_objfmt_output, bin_objfmt_section_switch"]}
{"id": "C60", "title": "A flat binary file is the memory image", "statement": "A flat binary file written without an error has every byte of every section at its load address minus the origin, zeroes elsewhere and nothing after the last section. If two sections share an address, an overlap is reported, and otherwise none is. A section before the origin is reported.", "quantifier": "every layout, every contents, every origin and every amount of reserved space", "why_tests_cant": "Any two of any number of sections can meet; sections are written out of order by seeking, and reserved space by repeated writes of a buffer.", "anchors": ["modules/objfmts/bin/bin-objfmt.c: check_lma_overlap, bin_objfmt_output_section, bin_objfmt_output_bytecode, bin_objfmt_output"]}
{"id": "C61", "title": "Expressions are read by the documented precedences", "statement": "A line is accepted as an expression by the NASM parser, by the preprocessor and by the GNU parser exactly if the documented grammar derives it, and it gets the structure the precedences and left-to-right grouping prescribe, which is unique. What follows the expression does not change it. Data expressions have no registers, directive expressions neither segments nor strings, and the preprocessor reports unknown symbols.", "quantifier": "every list of tokens, of any length and nesting", "why_tests_cant": "Operators of eight to ten levels combine with parentheses and prefix operators without bound; a wrong loop shows only for particular combinations.", "anchors": ["modules/parsers/nasm/nasm-parse.c: parse_expr, parse_bexpr, parse_expr0 to parse_expr6", "modules/preprocs/nasm/nasm-eval.c: nasm_evaluate, rexp0 to rexp3, expr0 to expr6", "modules/parsers/gas/gas-parse.c: parse_expr, parse_expr0 to parse_expr2"]}
{"id": "C62", "title": "The expression made by a parser has the value of the source", "statement": "The expression object built while parsing has, for all values of the symbols and registers in it, the value that the grammar's structure gives, although constants are folded and terms regrouped on the way; and building it never corrupts memory.", "quantifier": "every expression and every assignment of values", "why_tests_cant": "Folding happens at every step on whatever has been built so far.", "anchors": ["modules/parsers/nasm/nasm-parse.c: parse_expr6", "modules/parsers/nasm/nasm-parser.h: p_expr_new_tree", "libyasm/expr.c: yasm_expr_create"]}
{"id": "C63", "title": "Sections of an ELF file are read back as they were written", "statement": "A reader that follows the System V ABI finds in an ELF file (elf32, elfx32, elf64) the sections of the program, and only these and the tables: each with its name, type, flags, alignment, size and contents, at a multiple of its alignment, and with its relocations in the section after it.", "quantifier": "every list of sections with any names, contents, alignments and relocations, for the three machines", "why_tests_cant": "Offsets, indices and name positions depend on everything written before; a reader follows them through four tables.", "anchors": ["modules/objfmts/elf/elf-objfmt.c: elf_objfmt_output, elf_objfmt_output_section, elf_objfmt_output_secthead, elf_objfmt_output_align", "modules/objfmts/elf/elf.c: elf_secthead_write_to_file, elf_secthead_write_rel_to_file, elf_secthead_write_relocs_to_file, elf_secthead_set_file_offset, elf_strtab_append_str, elf_strtab_output_to_file, elf_proghead_write_to_file"]}
{"id": "C64", "title": "Symbols of an ELF file are read back as they were declared", "statement": "The symbol table of an ELF file has every symbol that belongs there exactly once, the local ones first and counted, with the name (with prefix and suffix if it is visible outside), value, size, binding, type, visibility and section that the program gave it by labels, EQU, GLOBAL, EXTERN, COMMON and the type, size and weak directives; and no others.", "quantifier": "every symbol table and every sequence of directives, any number of symbols", "why_tests_cant": "Entries are made at different times by different directives and by the traversal at the end, and inserted before others; names are renumbered.", "anchors": ["modules/objfmts/elf/elf-objfmt.c: elf_objfmt_build_symtab, build_extern, build_global, build_common, elf_objfmt_symtab_append, dir_type, dir_size, dir_weak", "modules/objfmts/elf/elf.c: elf_symtab_append_entry, elf_symtab_insert_local_sym, elf_symtab_assign_indices, elf_symtab_write_to_file, elf_strtab_entry_set_str"]}
{"id": "C65", "title": "A linker puts into each ELF reference what the program asked for", "statement": "For every value that refers to a symbol, absolute or relative to the current position, of any accepted size and with any of the special symbols after WRT, the relocation found in the file is at the value's address and makes a linker that follows the ABI put there the number asked for, wherever it places the sections, the symbols, the GOT and the PLT.", "quantifier": "every value, location, symbol and every choice of addresses by the linker", "why_tests_cant": "The number is split between the symbol, the addend, the field and the place; any of these may be wrong only for one combination of kind, size and machine.", "anchors": ["modules/objfmts/elf/elf-objfmt.c: elf_objfmt_output_value", "modules/objfmts/elf/elf.c: elf_reloc_entry_create, elf_handle_reloc_addend, elf_is_wrt_sym_relative, elf_is_wrt_pos_adjusted, elf_secthead_write_relocs_to_file", "modules/objfmts/elf/elf-x86-x86.c: elf_x86_x86_map_reloc_info_to_type", "modules/objfmts/elf/elf-x86-amd64.c: elf_x86_amd64_map_reloc_info_to_type", "modules/objfmts/elf/elf-x86-x32.c: elf_x86_x32_map_reloc_info_to_type"]}
{"id": "C66", "title": "Arithmetic on bit vectors of any length is exact or reports that it is not", "statement": "Bit vectors of any number of bits, also when the last machine word is only partly used: addition, subtraction, negation, increment, comparison, multiplication and division give the two's complement result, leave the unused bits clear, and tell (by the overflow flag, the carry or the error) exactly when the true result does not fit.", "quantifier": "every length and every two vectors of that length", "why_tests_cant": "Carries run through any number of words, multiplication and division loop over all bits; mistakes show only for particular words or lengths.", "anchors": ["libyasm/bitvect.c: BitVector_compute, BitVector_add, BitVector_sub, BitVector_Negate, BitVector_increment, BitVector_Compare, BitVector_Lexicompare, BitVector_Multiply, BitVector_Mul_Pos, BitVector_Divide, BitVector_Div_Pos"]}
{"id": "C67", "title": "Bits, fields and ranges of bit vectors are read, written and moved exactly", "statement": "Setting, clearing and testing bits, set operations, shifts, copying to another length, reading and writing fields of up to 64 bits at any place, filling a range and copying a range between two vectors at any two places, and the conversion from and to bytes have the described effect on each bit of the vector and on no other, whatever the alignment to words.", "quantifier": "every length, every vector, every offset and length of a field or range", "why_tests_cant": "Fields start and end in the middle of words, in one, two or many words; source and destination are shifted against each other by any number of bits.", "anchors": ["libyasm/bitvect.c: BitVector_Bit_On, BitVector_Bit_Off, BitVector_bit_test, BitVector_LSB, BitVector_MSB, BitVector_msb_, Set_Union, Set_Intersection, Set_ExclusiveOr, Set_Complement, Set_Max, BitVector_shift_left, BitVector_shift_right, BitVector_Move_Left, BitVector_Word_Insert, BitVector_Copy, BitVector_Chunk_Store, BitVector_Chunk_Read, BitVector_Interval_Fill, BitVector_Interval_Copy, BitVector_Block_Store, BitVector_Block_Read"]}
{"id": "C68", "title": "The form of an instruction is the first in its table that fits, and the error names what is wrong", "statement": "For every instruction and every list of operands, in every mode, syntax and processor setting: the encoding used is that of the first form in the table whose operand types, sizes and modifiers fit; the instruction is refused exactly if none fits.  When refused, the message says that the number of operands is wrong exactly if no form has that number, blames the size of an operand only if that size is all that keeps some form from fitting, and a processor only if that is all.", "quantifier": "every table of forms, every list of operands, every mode, syntax, set of enabled processor features and assembler setting", "why_tests_cant": "Forms differ in types, sizes, relaxed sizes, suffixes, processors and modes, and each operand is tested in turn; which form wins for which operands cannot be listed.", "anchors": ["modules/arch/x86/x86id.c: x86_find_match, x86_match_error, x86_check_ea, x86_id_insn_finalize", "modules/arch/x86/x86arch.c: yasm_x86__get_reg_size"]}
{"id": "C69", "title": "Each operand is put where the processor looks for it, whatever the others are", "statement": "When an instruction is accepted, the processor finds every register operand in the field the form gives for it, and reads it as that register (AH to BH and SPL to DIL included) with the REX byte or VEX prefix the instruction gets; the operation has 64 bits exactly where the form says; the immediate field has the size and signedness of the form and the value that was written; and the effective address has the segment, size, flags and value that were written.", "quantifier": "every form, every list of operands that fits it, every mode and syntax, every list of prefixes, every value of symbols", "why_tests_cant": "Operands are placed one after the other in one instruction, and share REX, ModRM, VEX and the opcode; a later one can undo an earlier one only in particular combinations.", "anchors": ["modules/arch/x86/x86id.c: x86_id_insn_finalize", "modules/arch/x86/x86bc.c: yasm_x86__set_rex_from_reg, yasm_x86__ea_create_reg, yasm_x86__ea_create_imm, yasm_x86__ea_init, yasm_x86__ea_set_disponly, yasm_x86__bc_apply_prefixes"]}
{"id": "C70", "title": "No operand of any instruction of the x86 table is lost", "statement": "For every instruction name of the table, in every syntax and mode: when a line with that name is accepted, every register operand can be read off the instruction (it is in a register field, in the opcode, in VEX.vvvv or in the immediate, or no other register could have been written there), every memory operand is its effective address, every immediate is its immediate field, and every segment register is in ModRM or has a form of its own.", "quantifier": "every name of the two instruction tables, every form of its group, every list of operands and prefixes, every mode and syntax, every value of symbols", "why_tests_cant": "The table has 1549 names and over a thousand forms, of which tests assemble some with some operands; one entry with a wrong flag or a missing operand action silently drops an operand.", "anchors": ["modules/arch/x86/gen_x86_insn.py: add_group, add_insn, finalize_insns", "modules/arch/x86/x86id.c: x86_id_insn_finalize, yasm_x86__parse_check_insnprefix"]}
{"id": "C71", "title": "Every instruction is found by its name, and a name is refused only where it could not be used", "statement": "In either syntax every instruction and every prefix of the table is found by its name, in capital or small letters, and no name stands for two of them; a name is refused because of the mode exactly if none of the forms that can be written with it is for this mode; and it is refused because of the processor only if no line with it could be assembled for the processors that are enabled.", "quantifier": "every identifier, every name of both tables (with and without GAS's size letters), every mode, every set of enabled processors, every list of operands", "why_tests_cant": "There are 3481 names in the two generated tables, whose flags and processors are computed from those of their forms; tests use some of them in one mode with everything enabled.", "anchors": ["modules/arch/x86/x86id.c: yasm_x86__parse_check_insnprefix", "modules/arch/x86/gen_x86_insn.py: Insn.auto_cpu, Insn.auto_misc_flags, cpu_lcd, finalize_insns, add_prefix"]}
{"id": "C72", "title": "The processor and the mode are those the directives say", "statement": "After any sequence of directives a processor feature is enabled exactly if the last of the words given to CPU that says something about it enables it, and without such a word it is enabled; likewise the kind of padding; the features an instruction was checked against are not changed by later directives; every word that is not known is reported and has no other effect, and a number is taken as its decimal digits; BITS sets the mode to 16, 32 or 64 and reports anything else; so the mode is always one that exists, and no instruction is refused for its processor unless there was a CPU directive.", "quantifier": "every sequence of CPU, BITS, .code16/32/64 and DEFAULT directives with any words and numbers", "why_tests_cant": "The features after a directive depend on the whole history of words, and the table of feature sets is shared by all instructions of a file; tests use one directive.", "anchors": ["modules/arch/x86/x86cpu.gperf: yasm_x86__parse_cpu, x86_cpu_intel, x86_cpu_amd, x86_cpu_ia64, x86_cpu_set, x86_cpu_clear", "modules/arch/x86/x86arch.c: x86_create, x86_dir_cpu, x86_dir_bits, x86_set_var, x86_get_fill"]}
{"id": "C73", "title": "A line that is accepted is output exactly as long as it was counted", "statement": "Take any line with an x86 instruction: any name of the instruction table in either syntax, any prefixes the mode allows, any segment overrides and any operands. If the line is accepted then, however often its displacement or immediate is widened while lengths are computed and whatever TIMES says, the bytes written for it are exactly as many as were counted for it (so that everything behind it is where the labels say), and no internal error is reported. The same holds for relative and far jumps.", "quantifier": "every name of the table, dialect, mode, CPU setting, prefixes, overrides, operands and symbol values; every order of widening; every repetition count", "why_tests_cant": "the table has more than a thousand names and the fields of an instruction come from nine sources; only a proof over the whole table reaches combinations nobody writes in a test", "anchors": ["modules/arch/x86/x86id.c: x86_id_insn_finalize, x86_finalize_jmp, x86_finalize_jmpfar", "modules/arch/x86/x86bc.c: x86_bc_insn_calc_len, x86_bc_insn_expand, x86_bc_insn_tobytes", "libyasm/bytecode.c: yasm_bc_tobytes"]}
{"id": "C74", "title": "The sections of a COFF file are those of the program", "statement": "A reader of a coff, win32 or win64 file finds the machine and exactly the sections of the program, in their order, each with its name however long, its flags, alignment, size, contents, and all its relocations however many; nothing else.", "quantifier": "every list of sections with any contents, names, flags, alignments and relocations, in all three formats", "why_tests_cant": "Names go to a string table whose offsets depend on all the names before, long ones are written as a decimal offset, and the number of relocations is moved elsewhere when it does not fit; tests have a few sections.", "anchors": ["modules/objfmts/coff/coff-objfmt.c: coff_objfmt_output, coff_objfmt_output_section, coff_objfmt_output_secthead, coff_objfmt_output_sectstr"]}
{"id": "C75", "title": "The symbols of a COFF file are those of the program", "statement": "A reader that goes through the symbol table of a coff, win32 or win64 file finds exactly the symbols that belong there, in their order and each once, with the name (prefix and suffix included, however long), value, section, type, storage class and auxiliary entry they were declared with, and each has the index that relocations use for it.", "quantifier": "every symbol table with any declarations, every prefix and suffix, all three formats", "why_tests_cant": "The index of a symbol depends on which symbols before it are listed and on their auxiliary entries; three passes over the table have to agree on it.", "anchors": ["modules/objfmts/coff/coff-objfmt.c: coff_objfmt_count_sym, coff_objfmt_output_sym, coff_objfmt_output_str, coff_objfmt_output"]}
{"id": "C76", "title": "A linker puts into every field of a COFF file what the program asks for", "statement": "For every value that refers to a symbol and is accepted, the relocation in the file has the address of the value, a type with its number of bits, and a symbol such that a linker following the format computes the address (from the image's start for WRT ..imagebase and sections without base), the section index (SEG), the section offset, or the distance from the instruction that the program asks for, wherever it places things. Exactly the values for which there is no relocation are refused.", "quantifier": "every value, place in an instruction, symbol (label, EQU, extern, common), section, format; every decision of the linker", "why_tests_cant": "What is in the field depends on the format, the machine, the bytes behind the field, the kind of the symbol and WRT; whether the result is right is only seen after linking.", "anchors": ["modules/objfmts/coff/coff-objfmt.c: coff_objfmt_output_value"]}
{"id": "C77", "title": "Conditional blocks and %rep blocks are assembled as written", "statement": "For every source whose blocks are properly nested, the NASM preprocessor passes on exactly the lines the structure says, in order: of a conditional the first branch whose condition holds, or the one after %else, with the conditions evaluated where they stand; of a %rep block its body as often as the count says, or until %exitrep. A word is a directive exactly if it is in the table. Sources that are not properly nested are reported.", "quantifier": "every nesting of conditionals, repetitions, macros and lines of any length and depth; every meaning of the conditions, counts and single-line macros", "why_tests_cant": "Blocks nest without bound, and what is skipped still has to be recognised; a repetition may define macros that the next turn calls.", "anchors": ["modules/preprocs/nasm/nasm-pp.c: do_directive, pp_getline, is_condition, error"]}
{"id": "C78", "title": "A macro call is replaced by the body of the macro it names", "statement": "A line that names a multi-line macro with a number of parameters it takes is replaced by the lines of the newest such macro that is not being expanded, the label of the line before them; within them other macros are called, defined and repeated; missing parameters are the defaults; every call has a number of its own.", "quantifier": "every source with properly nested blocks, every set of macros with any bodies, any depth of calls", "why_tests_cant": "Macros call and define each other, in repetitions and conditionals; the state after a call depends on everything called in it.", "anchors": ["modules/preprocs/nasm/nasm-pp.c: expand_mmacro, is_mmacro, do_directive, pp_getline"]}
{"id": "C79", "title": "The parameters in a macro body stand for the arguments of the call", "statement": "The arguments of a call are what stands between its commas, without the white space around it or the braces; the last parameter of a macro with + is the rest of the line. In the body %k stands for the k-th argument counted from where the list was rotated to, %0 for their number, %%x for a name no other call has, %+k and %-k for the condition code given and its opposite, %a:b for the arguments from a to b; neighbouring identifiers become one.", "quantifier": "every list of arguments, plain or in braces, with any white space; every body line; every rotation", "why_tests_cant": "Arguments are pointers into the line of the call, counted twice by different loops; which tokens follow them is decided by commas, braces and white space in any order.", "anchors": ["modules/preprocs/nasm/nasm-pp.c: count_mmac_params, expand_mmacro, expand_mmac_params, find_cc"]}
{"id": "C80", "title": "A line without preprocessor words passes through the preprocessor unchanged", "statement": "Splitting a source line into tokens and writing the tokens out again gives the same line, except that each stretch of white space is one space, a comment and the white space before it are gone, an open string is closed and %{x} is %x; in particular strings keep every character, also quotes of the other kind, semicolons and blanks. Names and numbers are taken whole.", "quantifier": "every line of any length without environment variables and context-local names", "why_tests_cant": "Where a token ends depends on all the characters before it; a string may contain anything that means something outside of it.", "anchors": ["modules/preprocs/nasm/nasm-pp.c: tokenise, detoken"]}
{"id": "C81", "title": "Single-line macros stand for their bodies", "statement": "In every line each use of a single-line macro is replaced by its body, with the arguments of the call in place of the parameters, in which all other macros are expanded in turn and the macro itself is not; arguments are what stands between the commas at the level of the call, without the white space around them; of macros with the same name the one with that number of parameters is taken; names that come to stand side by side, or have %+ between them, become one name, which is looked up again. The expansion ends.", "quantifier": "every set of macros, with any bodies that refer to each other in any way; every line", "why_tests_cant": "Bodies are scanned again for macros without bound, and which macro is in progress is a flag that a marker in the token list takes back.", "anchors": ["modules/preprocs/nasm/nasm-pp.c: expand_smacro"]}
{"id": "C82", "title": "Unwind information says what the directives of the prologue say", "statement": "For every procedure described with the win64 directives the unwind information that is written, read as the system reads it, has the operations of the prologue from the last to the first, each with the place in the prologue it was given at, its register and its size or offset in full, the length of the prologue, the frame register with its offset and whether there is a handler, or an error is reported; a directive outside of a prologue is reported; whatever the format has room for is accepted; and each entry of the function table refers to the information of its procedure.", "quantifier": "every sequence of directives at any positions, all registers, sizes and offsets; any number of procedures", "why_tests_cant": "The size of an entry depends on its value in three ranges, the number of slots on all of them, and the place of the information on all the procedures before.", "anchors": ["modules/objfmts/coff/coff-objfmt.c: dir_proc_frame, procframe_checkstate, dir_pushreg, dir_setframe, dir_allocstack, dir_savereg, dir_savexmm128, dir_pushframe, dir_endprolog, dir_endproc_frame", "modules/objfmts/coff/win64-except.c: yasm_win64__unwind_generate, win64_uwinfo_bc_tobytes, win64_uwcode_bc_calc_len, win64_uwcode_bc_expand, win64_uwcode_bc_tobytes"]}
{"id": "C83", "title": "A Mach-O file has in it the sections of the program", "statement": "For every program assembled for macho32 or macho64 whose file is written, a reader that follows the Mach-O format finds the header of the right kind and through the load commands all the sections of the program, in order and no others, each with its name, segment, size, alignment, flags, contents and relocations; the addresses given to them are aligned as asked for and do not overlap.", "quantifier": "every object: any number of sections up to the limit of the format, any contents, alignments and relocations, with any symbols", "why_tests_cant": "Every position in the file depends on the number of sections, the sizes of those before, the alignment, and the number of relocations and symbols.", "anchors": ["modules/objfmts/macho/macho-objfmt.c: macho_objfmt_output, macho_objfmt_calc_sectsize, macho_objfmt_output_secthead, macho_objfmt_output_relocs, macho_objfmt_output_section"]}
{"id": "C84", "title": "The symbol table of a Mach-O file has in it the symbols of the program", "statement": "For every program assembled for macho32 or macho64, a reader finds in the symbol table exactly the symbols that are to be there, in order: each with its name, whether it is external, private, absolute, in a section or elsewhere, and its value; the value of a label is the address of its section in the file and its offset, that of an EQU is its value, that of a common variable its size; a value that is not known is reported.", "quantifier": "every object, every symbol and every combination of declarations", "why_tests_cant": "The number of a symbol depends on which of those before are put into the table, the place of its name on all names before, its value on the layout of all sections.", "anchors": ["modules/objfmts/macho/macho-objfmt.c: macho_objfmt_count_sym, macho_objfmt_output_symtable, macho_objfmt_output_str"]}
{"id": "C85", "title": "A reference in a Mach-O file comes out of the linker as the program says", "statement": "For every value with a reference that is accepted for macho32 or macho64, the relocation is at the field, has its size, and refers to the symbol or section meant, and what a linker puts into the field, wherever it places the sections and symbols, is the address asked for, with what is added and relative to the current position or to the table of addresses if so asked for; what cannot be expressed is reported.", "quantifier": "every value, every object around it, every placement by the linker", "why_tests_cant": "The number in the field, the type and the symbol table are made in three different places, and whether they fit together depends on the placement by the linker.", "anchors": ["modules/objfmts/macho/macho-objfmt.c: macho_objfmt_output_value, macho_objfmt_output_relocs, macho_objfmt_calc_sectsize"]}
{"id": "C86", "title": "The listing shows every line with its address and its bytes", "statement": "For every program, somebody who reads the listing finds in it every line of the source once and in order, with rows numbered from 1; with a line that makes code, the address and the bytes of it, marked if they are repeated, or marked as a gap if the space is only reserved; and brackets around exactly those bytes that a linker fills in, round ones if the value is relative.", "quantifier": "every sequence of lines, any bytes, any values in them and any relocations of each section", "why_tests_cant": "How bytes are broken into rows depends on the brackets between them, and which values get brackets on the relocations of all lines before.", "anchors": ["modules/listfmts/nasm/nasm-listfmt.c: nasm_listfmt_output, nasm_listfmt_output_value", "libyasm/bytecode.c: yasm_bc_tobytes"]}
{"id": "C87", "title": "Names and labels in NASM source stand for what the program says", "statement": "For every program in NASM syntax, each label is defined under its full name, which for a name that starts with a dot is that of the last ordinary label and the name; it stands for the place of what follows it in its section, or, after absolute, for the address given there and the space reserved since; names, $ and $$ in operands, in times and in equ have the value that they have at that point of the source; and code that reserves no space is reported after absolute.", "quantifier": "every sequence of labels, equ, instructions, data, times, section switches and absolute, any names that are no keywords or are forced with a dollar sign, and any expressions of them", "why_tests_cant": "The meaning of a name depends on all lines before it: the last ordinary label, the section, the bytes put into it and the space reserved.", "anchors": ["modules/parsers/nasm/nasm-token.re: handle_dot_label, nasm_parser_lex", "modules/parsers/nasm/nasm-parse.c: parse_line, parse_times, parse_expr6, define_label, set_nonlocal_label, nasm_parser_directive, nasm_parser_parse", "libyasm/valparam.c: yasm_vp_id"]}
{"id": "C88", "title": "Every LC-3b instruction does what its line says", "statement": "For the LC-3b architecture, every instruction with operands that the machine has is assembled to the word that the machine reads as that operation on those registers, with that number or that target, whatever the case of its name and in each of its copies; a number that does not go into its field is reported, and a jump that cannot reach its target is an error.", "quantifier": "every instruction, registers, numbers and distances of labels, and every number of copies", "why_tests_cant": "There are too many registers, numbers and distances to try, and the faults are at the ends of fields of four to nine bits and in copies.", "anchors": ["modules/arch/lc3b/lc3bid.re: lc3b_id_insn_finalize, yasm_lc3b__parse_check_insnprefix", "modules/arch/lc3b/lc3bbc.c: lc3b_bc_insn_calc_len, lc3b_bc_insn_expand, lc3b_bc_insn_tobytes, yasm_lc3b__intnum_tobytes", "libyasm/value.c: yasm_value_output_basic", "libyasm/section.c: recalc_normal_span"]}
{"id": "C89", "title": "An XDF file says what the program says", "statement": "For every program assembled for xdf, a reader that follows the format finds exactly the sections of the program, in order, with their names, addresses, flags, alignment, size, contents and relocations, and exactly the symbols, with their names, sections, values and declarations, each under the number that relocations use; and what a linker puts into a field with a reference, wherever it places sections and external symbols, is what the program asks for.", "quantifier": "every object: any number of sections, symbols and relocations, any contents, every value and every placement by the linker", "why_tests_cant": "Every position in the file depends on the numbers of sections, symbols and relocations before it and on all names, and a reference is right only if the field, the relocation and the symbol table fit together.", "anchors": ["modules/objfmts/xdf/xdf-objfmt.c: xdf_objfmt_output, xdf_objfmt_output_value, xdf_objfmt_output_section, xdf_objfmt_output_secthead, xdf_objfmt_count_sym, xdf_objfmt_output_sym, xdf_objfmt_output_str"]}
{"id": "C90", "title": "An RDF file says what the program says", "statement": "For every program assembled for rdf, a reader that follows the RDOFF2 format finds exactly the names of modules and libraries given, a record for each symbol that is exported, imported or common with its name, flags, place or number and size, the relocations, the size of uninitialized space, and the sections with their types, numbers and contents, each in order; what is left out or cut is reported; and what a linker puts into a field with a reference, wherever it places sections and symbols, is what the program asks for.", "quantifier": "every object: any number of sections up to the limit of the format, any symbols, words after declarations and relocations, every value and every placement by the linker", "why_tests_cant": "The file is a sequence of records of varying length that is only right if all lengths before are, the number of a symbol depends on all before it, and the field, the relocation and the symbol must fit together.", "anchors": ["modules/objfmts/rdf/rdf-objfmt.c: rdf_objfmt_output, rdf_objfmt_output_value, rdf_objfmt_output_sym, rdf_parse_flags, rdf_objfmt_output_section_mem, rdf_objfmt_output_section_reloc, rdf_objfmt_output_section_file, rdf_objfmt_add_libmodule"]}
{"id": "C91", "title": "Stabs lead a debugger to the file, the functions and the lines", "statement": "For every program assembled with the debugging format stabs, a debugger that reads the tables of the linked program finds the source file, each function at its address, and for every address of the code the file and line it comes from; the first entry gives the number of entries and the size of the strings, and a program that cannot be described is reported.", "quantifier": "every program: any number of sections, bytecodes, labels, files and lines, and every placement by the linker", "why_tests_cant": "Lines are offsets from the function before them, strings are found by offsets that depend on all strings before, and whether a line is entered depends on the history; a test looks at a few entries.", "anchors": ["modules/dbgfmts/stabs/stabs-dbgfmt.c: stabs_dbgfmt_generate, stabs_dbgfmt_generate_sections, stabs_dbgfmt_generate_bcs, stabs_dbgfmt_generate_n_fun, stabs_dbgfmt_append_bcstr, stabs_dbgfmt_append_stab, stabs_bc_stab_tobytes, stabs_bc_str_tobytes", "libyasm/section.c: yasm_object_sections_traverse", "libyasm/symrec.c: yasm_symtab_define_label"]}
{"id": "C92", "title": "The command line is read as it is written", "statement": "For every command line made of options in the documented forms (-s, -s value, -svalue, --name, --name=value), unknown options, options whose value is missing and file names, in any number and order, yasm acts on exactly these options with exactly these values and files, in order; after -- every argument is a file; an unknown option is reported, and an option without its value is an error that stops yasm and leaves the other arguments as they are.", "quantifier": "every list of arguments made of these forms, every table of options without ambiguous names, and every behaviour of the handlers of options", "why_tests_cant": "Arguments can be read in different ways depending on the ones before them and on the whole table of options (an argument may be a value, a letter with a value, a long name or a file), and tests try single options.", "anchors": ["frontends/yasm/yasm-options.c: parse_cmdline", "frontends/yasm/yasm.c: options, not_an_option_handler, other_option_handler, main"]}
{"id": "C93", "title": "The lines that are assembled are the lines of the source file", "statement": "For every source file, each preprocessor reads exactly the lines of the file, whatever their length and whether they end with LF or CR LF, and a last line without an end too; the NASM preprocessor joins lines that end with a backslash to the next, and counts every line of the file.", "quantifier": "every file: every number of lines, every length of each, every way to end them, and for NASM every number of parts of a line", "why_tests_cant": "Lines are read in pieces into a buffer that has to grow at the right moments, so the result depends on the exact length of every line in relation to the size of the buffer.", "anchors": ["modules/preprocs/raw/raw-preproc.c: raw_preproc_get_line", "modules/preprocs/gas/gas-preproc.c: read_line_from_file", "modules/preprocs/cpp/cpp-preproc.c: cpp_preproc_get_line", "modules/preprocs/nasm/nasm-pp.c: read_line"]}
{"id": "C94", "title": "GAS conditionals and repetitions assemble the lines that are meant", "statement": "In a source for the GAS preprocessor, exactly the branch of each .if / .elseif / .else whose condition holds is assembled, and the lines of a .rept exactly as often as its count says, however they are nested, with the values that .set has given at that point; a directive that belongs to no block and a block that is not closed are reported, and reading a finite program ends.", "quantifier": "every program of text, .set, conditionals and repetitions in any nesting, every meaning of conditions and counts", "why_tests_cant": "Which lines are assembled depends on two counters over the whole history of the file (one for open blocks, one for skipped ones) and on lines that are put back to be read again; tests try single blocks.", "anchors": ["modules/preprocs/gas/gas-preproc.c: process_line, handle_if, handle_else, handle_endif, eval_if, eval_else, eval_elseif, eval_endif, eval_rept, eval_macro, expand_macro, gas_preproc_get_line"]}
{"id": "C95", "title": "Comments of GAS sources are removed, and nothing else is", "statement": "For every GAS source, the text between /* and the next */ is removed, within a line or over many lines, and all other text is left as it is; what is in a string is never taken for a comment.", "quantifier": "every line and every list of lines, within a comment or not", "why_tests_cant": "Whether a character is in a comment depends on everything before it in the file: comments that are open, strings, and which kind of line each earlier one was.", "anchors": ["modules/preprocs/gas/gas-preproc.c: kill_comments, find_comment, find_str_bound"]}
{"id": "C96", "title": "The parameters of GAS macros stand for the arguments of the call", "statement": "For every GAS macro and every call of it, each reference to a parameter in the lines of the macro is replaced by the argument at the place of the parameter, or by its default if the argument is missing or empty, and all other text is left as it is, whatever the lengths of names, values and lines.", "quantifier": "every list of parameters, every list of arguments, every line", "why_tests_cant": "A line is changed in place, piece by piece, while it is being read, so an error in one offset shows only with certain lengths and certain places of names and values.", "anchors": ["modules/preprocs/gas/gas-preproc.c: expand_macro, get_param_value, gas_scan"]}
{"id": "C97", "title": "Symbols that are set in a GAS source stand for their values", "statement": "For every line of a GAS source, each word that is a symbol set by the preprocessor is replaced by its value in decimal, and all other text of the line is left as it is, whatever the lengths of the names, of the values and of the line.", "quantifier": "every set of symbols with their values, every line", "why_tests_cant": "The line is changed in place while it is being read; shorter and longer values move the rest of the line by different amounts, and every place of a name in a line is possible.", "anchors": ["modules/preprocs/gas/gas-preproc.c: substitute_values, gas_scan"]}
{"id": "C98", "title": "Options and names reach the external C preprocessor as they are", "statement": "For every list of include directories, of files to include first, of macros to define and to undefine, and every source name, the C preprocessor is run once and gets each of them as one argument, in the order given; a command line that is too long is refused, and none is written past the memory taken for it.", "quantifier": "every list of options, every name, every length of the command line", "why_tests_cant": "The command line is put together in a buffer of a fixed size and read again by a shell, so every character in a name and every total length matter.", "anchors": ["modules/preprocs/cpp/cpp-preproc.c: cpp_build_cmdline, cpp_preproc_create, cpp_preproc_predefine_macro, cpp_preproc_undefine_macro, cpp_preproc_add_include_file"]}
{"id": "C99", "title": "The files the external C preprocessor lists are told as dependencies", "statement": "For every list of dependencies the C preprocessor writes, asking for the included files gives each of the files in it once, in its order, without the target and the source, and then ends.", "quantifier": "every target, every source name, every list of names, every layout of the list that the C preprocessor writes", "why_tests_cant": "The list is read character by character without its syntax, so that layouts, lengths of names and ends of the file all matter.", "anchors": ["modules/preprocs/cpp/cpp-preproc.c: cpp_preproc_get_included_file", "frontends/yasm/yasm.c: do_generate_make_dependencies"]}
{"id": "C100", "title": "The rule written for make names the target, the source and all included files", "statement": "For every target, source and list of included files, make reads the dependencies written as one rule of the target with the source and all the files, in order, however long the names are and wherever the lines are broken, followed by an empty rule for each file if that was asked for.", "quantifier": "every target, every source, every list of files, every combination of the options for dependencies", "why_tests_cant": "Where lines are broken depends on the sum of the lengths of all names before, and the buffer of the empty rules grows with them.", "anchors": ["frontends/yasm/yasm.c: do_generate_make_dependencies, dos2unix_slash"]}
{"id": "C101", "title": "Names are compared without regard to the case of letters", "statement": "For all strings, comparing them without regard to case gives zero just if they differ at most in the case of letters, and otherwise a number whose sign tells their order; comparing at most n characters does so for the first n characters of each; neither reads behind the end of a string.", "quantifier": "every pair of strings, every count of characters", "why_tests_cant": "The result depends on the first place where two strings differ, at any distance from their starts, and on every pair of characters there.", "anchors": ["libyasm/strcasecmp.c: yasm__strcasecmp, yasm__strncasecmp"]}
{"id": "C102", "title": "The output never takes the place of the source", "statement": "For every source name and every object format, if no output name is given, the output is the last part of the source name with its extension replaced by that of the format, or removed, or with one added; where that would be the name of the source it is yasm.out instead, and the user is told; the name made fits the memory taken for it.", "quantifier": "every source name, every extension of an object format, with none", "why_tests_cant": "The name is changed in place, and all places of dots and all pairs of extensions are possible; a single case that fails overwrites a source.", "anchors": ["frontends/yasm/yasm.c: replace_extension, do_preproc_only, do_assemble"]}
{"id": "C103", "title": "The last option for a warning counts", "statement": "For every sequence of -w and -W options, a warning of a class is told just if the last option that names the class turns it on, or none names it and it is on from the start, where -w names all classes and turns them off; warnings are errors just if the last of -Werror and -Wno-error is -Werror; options that are not recognized change nothing.", "quantifier": "every sequence of options, every class of warnings", "why_tests_cant": "Each option changes one bit of a shared mask; the result depends on the whole sequence, of any length and in any order.", "anchors": ["frontends/yasm/yasm.c: opt_warning_handler", "libyasm/errwarn.c: yasm_warn_enable, yasm_warn_disable, yasm_warn_disable_all, yasm_errwarn_initialize, yasm_warn_set_va"]}
{"id": "C104", "title": "Included files are looked for in the order given", "statement": "For every disk, every list of include paths and every name, the file opened is the first that exists of the name beside the including file and the name in each of the include paths, in the order they were given; none is opened just if none of them exists.", "quantifier": "every set of files on the disk, every list of include paths, every name and including file", "why_tests_cant": "The file found depends on all the places before it; paths are put together from text in many forms, with and without slashes at their ends.", "anchors": ["libyasm/file.c: yasm_fopen_include, yasm_add_include_path, yasm__combpath_unix"]}
{"id": "C105", "title": "The directories that a path needs are made", "statement": "For every disk and every path, asking for the directories of the path makes just those that are missing, leaves all others and all files as they are, and gives the length of the directory part of the path.", "quantifier": "every disk, every path, every number of directories", "why_tests_cant": "Each directory can be made only after those before it, for any depth and any part of the path that exists already.", "anchors": ["libyasm/file.c: yasm__createpath_common"]}
