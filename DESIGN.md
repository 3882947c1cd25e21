# Formal model of yasm — design

The model is written in Lean 4 under `lean/Verif/`. Each area has

* `Model.lean`  – executable definitions, each citing the file and lines of `/repo` it models
  and the simplifications made;
* `Spec.lean`   – the small independent specification the theorems are stated against;
* `Lemmas*.lean` – helper lemmas;
* `Props.lean`  – the property theorems (named in `MANIFEST.json`) with, beside each, an `example`
  showing that its hypotheses are met by a concrete non-trivial case.

## Trusted base

* Lean's kernel (4.33.0).  No `sorry`, no added axioms, no `native_decide`, no `bv_decide`.
  Every property theorem depends at most on `propext`, `Classical.choice`, `Quot.sound`.
* The reading of the C code recorded in the model's comments.  The code is not executed.
* Platform assumptions: LP64 (`long`/pointers 64 bit, `int` 32 bit), `N_word` = 32 bit
  (bitvect.h:25), two's complement, 8-bit bytes.
* Memory allocation never fails (`yasm_xmalloc` exits on failure).
* Where the C has undefined behaviour or calls `yasm_internal_error` the model has a distinct
  outcome.

## Plan per property

| id | modelled | how proved |
|----|----------|------------|
| C01 | `yasm_linemap_{create,set,goto_next,lookup}` on a vector of mappings | invariant (sorted, last ≤ current) by induction over operations; binary search = last mapping ≤ line |
| C02 | `yasm_linemap_poke` | the code does not do what linemap.h says: concrete counterexample + partial theorem on the poked line |
| C03 | `errwarn_data_new`, `yasm_errwarn_propagate` over a list with the cached `previous_we` | invariant over histories; refinement to stable insertion; counterexample for parser-error replacement |
| C04 | global error indicator and warning queue state machine | induction over event histories against a two-line spec |
| C05–C07 | `HAMT` trie with bitmap nodes, hash functions, rehash levels; insertion with fuel (divergence is an outcome) | refinement to an association list; pigeonhole for C07's counterexample |
| C08–C09 | red-black interval tree, zipper for parent pointers | invariants by induction; enumeration = overlap filter (permutation) |
| C10–C13 | intnum (long / 256-bit vector), bitvect word-level algorithms | refinement of word-level loops to `Nat`/`BitVec 256` arithmetic |
| C14–C15 | `get_sized`, `check_size`, `in_range` | bit-level specification |
| C16 | LEB128 writer/reader | round trip by induction on the value, negation witnesses at the 252-bit edge |
| C17–C18 | digit-string readers, character constants | induction over strings |
| C19–C23 | `yasm_expr` trees, levelling, simplification, EQU expansion, ordering | semantic preservation by induction on trees; counterexamples for the logical operators and for the stale slots |
| C24–C26 | symbol table state machine | invariants over histories |
| C27–C33 | bytecodes, align/org/reserve/data/incbin, spans and the optimizer | invariants, refinement, termination measure |
| C34 | sections of an object | invariants over histories |
| C35 | all of value.c's splitting (scan, mask, segment, shift, WRT, current position) and output without relocation | induction on the scan: term value plus parts value is constant; composed with expression simplification and integer output down to the bits of the field |
| C36, C51 | all of floatnum.c's arithmetic: tables, multiplication, literal reading, scaling, conversion | conversion proved equal to rounding of rationals; error bound carried through the scaling loop (at most 14 table powers plus repeats of the largest); tables checked entry by entry in integers |
| C52 | x86expr.c: register search, distribution of products, base/index choice, ModRM/SIB/REX, displacement length | the register multipliers are an invariant sum; the chosen base and index carry that sum; a separate decoder of ModRM/SIB (from the processor manual) reads the bytes back to the same address |
| C37 | associated data | refinement to a map |
| C38–C39 | path and escape functions | induction over strings |
| C40 | all of md5.c | invariant over update calls; compression function proved equal to RFC 1321 on the low 32 bits of registers of any width |
| C41–C45 | bit counting, `error_matches`, printed numbers, sized reads | arithmetic over all words; counterexamples where false |
| C46 | x86 no-op fill tables decoded by a separate no-op decoder | table facts lifted to every length by induction |
| C47–C48 | repeat counts and final instruction forms after optimization | invariants of the optimizer loop |
| C53–C56 | x86bc.c: length, widening and output of instructions, jumps and far jumps; bytecode.c's loop over copies; VEX set-up of x86id.c; bin-objfmt.c's value output | what was counted is an invariant of every history; the state after a copy differs from the one before only in ways that leave the next copy right; a separate decoder reads the bytes back; output functions are arbitrary, under stated contracts that the two modelled ones are proved to meet |
| C57, C58 | dwarf2-line.c (line number program, loc options, file table, header) and the head of dwarf2-dbgfmt.c | a separate reader of DWARF line number sections (decoder and state machine) reads the bytes back; the generator's registers and the reader's agree after every location, by induction over the locations; the file table refines a map from numbers to paths |
| C59, C60 | bin-objfmt.c: groups, load and virtual addresses, overlap check, section output | the forest of groups satisfies an invariant by induction over the sections linked so far (edges are the follow relation); acyclicity by rank and by depth; addresses by induction over the forest; the file by induction over the sections written |
| C61, C62 | nasm-parse.c, nasm-eval.c and gas-parse.c: the expression parsers, on lists of tokens | the grammars are operator tables with precedences; one lemma turns a parser of operands into one of a level (sound, complete, terminating), applied level by level inside an induction on the number of tokens; the value by induction over the tree with C19 |
| C63, C64, C65 | elf-objfmt.c, elf.c and the three elf-x86 machines: string tables, symbol entries with `type`, `size`, `weak`, GLOBAL, EXTERN, COMMON, section headers, relocations, value output | a separate reader (ELF header, section headers, symbols, relocations) and a separate linker (the formulas of the ABI supplements); an invariant over the entries relates them to a small abstract symbol table; the file is described by where each table lies, and read back; reference meaning modulo the bits of the field |
| C66, C67 | the word-level loops of bitvect.c (`Verif/Words`), on lists of 32-bit words with a partly used last word | each loop refines the whole-vector operation of `Verif/Bitvect`, and the theorems restate the result by `val` (the number the words spell) and `signed`; invariants over the words already processed, and over both directions of `Interval_Copy` |
| C68, C69, C70, C71 | x86id.c: finding the name of an instruction or prefix, choosing the form of an instruction, the report when there is none, placing the operands, finishing (prefixes, VEX), jumps and far jumps; gen_x86_insn.py: how the tables of forms and names are made, and the tables themselves | the choice refines "first form that fits", with a separate definition of fitting; placement by what the fields hold after the fold over the operands, read back by the processor's rules; facts about the whole table by evaluating a check on every form in the kernel, lifted by a lemma |
| C72 | x86cpu.gperf: the words of CPU and what they do; x86arch.c: creation, CPU, BITS, .code16/32/64, variables, choice of the padding | refinement of "the last word that says something", by induction over the history; the table of feature sets only grows; the feature sets of the processors by evaluating all of them in the kernel |
| C73 | the same code, from the operands of a line to the bytes | what the matching makes is shown to be a start for the computation of lengths of C53 (an invariant over the operands, plus checks of every form and name of the table in the kernel); the counted and the written length then agree by the theorems of `Verif/Insn` |
| C74, C75, C76 | coff-objfmt.c from the values to the file: section contents, headers, long names, relocations and their overflow, symbol indexes and entries with auxiliary entries, string table, value output | a separate reader (file header, section headers, string table, symbols with their auxiliary entries, relocations) and a separate linker (the relocation types of the PE/COFF specification); the three passes over the symbols are related to one specification of the index; the file is described by where each part lies, and read back; reference meaning modulo the bits of the field |
| C77, C78 | nasm-pp.c: the search for directives, `do_directive` for conditionals, `%macro`, `%rep`, `%rotate`, `%exitrep`, `%clear`; `is_mmacro`, `expand_mmacro`, the loop of `pp_getline` with its markers, counters and the stack of active macros | a separate structured language (`Block`) with a meaning by recursion (`exec`); simulation: the machine run on the lines of a block goes through the states the meaning goes through, by induction on the depth, with separate inductions for parts that are skipped, recorded in a definition or passed over after `%exitrep`; determinism; conditions, counts and single-line macros are arbitrary functions |
| C79 | nasm-pp.c: `count_mmac_params`, the stripping loop of `expand_mmacro`, `expand_mmac_params`, `find_cc` on tokens | the arguments are written out by a separate function and read back; references have a separate meaning; the table of condition codes against the numbers of the processor manual, checked as a whole in the kernel |
| C80 | nasm-pp.c: `tokenise`, `detoken` | a separate function on characters that knows nothing of tokens (`clean`) gives the same line; induction over the line |
| C81 | nasm-pp.c: `expand_smacro`: the token loop with its end markers and flags, the parameter loop with its pointers and counters, the joining of names, the rescan | a separate meaning of lines as an inductive relation (`Expands`, `Joined`, `Becomes`); simulation: what is in front of any rest of the line is replaced by its meaning and the flags are as before; determinism; macros without parameters: induction on how many are not in progress |
| C82 | coff-objfmt.c: the win64 directives and their state; win64-except.c: sizes, bytes and header of the unwind information | a separate reader of unwind information (`Verif/Unwind/Spec.lean`); each operation written is read back with what follows it, induction over the operations; the directives are what is recorded, by induction; positions of the information by induction over the procedures |
| C83 | macho-objfmt.c: layout, headers, contents and relocations | the same reader; positions by induction over the sections, then each field |
| C84 | macho-objfmt.c: counting, symbol table, strings | a separate reader (`Verif/Macho/Spec.lean`); positions of entries and names by induction over the symbols |
| C85 | macho-objfmt.c: `macho_objfmt_output_value` | a separate linker (`Verif/Macho/Link.lean`) that reads the file; by cases over the types of relocations, with C83 and C84 for what it reads |
| C86 | nasm-listfmt.c, all of it, with what `yasm_bc_tobytes` gives | a separate reader of listings (`Verif/Listing/Spec.lean`) that knows numbers, brackets and continuation; rows by induction over the bytes, marks by induction over the values with the relocations that are left as invariant |
| C87 | nasm-token.re (words, local labels, forced names, words in directives), nasm-parse.c (`parse_line`, `parse_times`, `$` and `$$`, `define_label`, absolute sections) | statements with their meaning given by those before them (`Verif/Nasm/Spec.lean`: scope, section, pieces, address); the state of the parser is related to the past by an invariant that each line keeps |
| C88 | lc3bid.re (table of instructions, `lc3b_id_insn_finalize`), lc3bbc.c, value.c `yasm_value_output_basic` | a decoder of LC-3b words written from the manual of the machine and the meaning of each line (`Verif/Lc3b/Spec.lean`); case by instruction, with the fields read back for all values, induction on the copies |
| C89 | xdf-objfmt.c (all of the output, `xdf_objfmt_output_value`) | a reader of XDF files and a linker (`Verif/Xdf/Spec.lean`); layout lemmas by induction on sections and symbols, then the reader applied to the file |
| C90 | rdf-objfmt.c (all of the output, `rdf_objfmt_output_value`, `rdf_parse_flags`, the names of modules and libraries) | a reader of RDOFF2 files and a linker (`Verif/Rdf/Spec.lean`); each list of bytes is a beginning of a header with certain records, closed under appending; induction on symbols, sections and relocations |
| C91 | stabs-dbgfmt.c (all of the generation and the bytes; not sections `.stab` of the program) | a reader of stabs and a debugger that looks up addresses (`Verif/Stabs/Spec.lean`); the code appends the stabs and strings of a list of events; induction on bytecodes |
| C92 | yasm-options.c (`parse_cmdline`), the table and the handlers of other arguments in yasm.c | items a user writes, how they are written and what they mean (`Verif/Cmdline/Spec.lean`); reading what is written gives what is meant, by induction on the items; the table of yasm meets the conditions |
| C93 | reading of lines in raw-preproc.c, gas-preproc.c, cpp-preproc.c, nasm-pp.c (`read_line`), over fgets | how lines are written (`Verif/Lines/Spec.lean`); reading the file gives the lines back, by induction on the pieces of a line with the buffer always having room, then on the lines |
| C94 | gas-preproc.c: `process_line` with the handlers of conditionals, `.rept`, `.macro` (without parameters), the loop of `gas_preproc_get_line`; the meaning of conditions is a parameter | programs as trees with a meaning by recursion (`Verif/Gas/Spec.lean`); simulation by induction on the program, one lemma for programs that are skipped and one for those that are not, and an induction on the count for `.rept` |
| C95 | gas-preproc.c: `kill_comments`, `find_comment`, `find_str_bound` | comments read character by character (`Verif/Comment/Spec.lean`) against the searches of the code, by induction on the line, and on the list of lines |
| C96 | gas-preproc.c: `expand_macro`, `get_param_value`, `gas_scan` (the ends of tokens) | lines and arguments as they are written (`Verif/Param/Spec.lean`); tokens never cross a backslash, so the loop goes from reference to reference, by induction on the text and on the references |
| C97 | gas-preproc.c: `substitute_values`, `gas_scan` (the ends of tokens) | lines as words, decimal numbers and other characters (`Verif/Param/Subst.lean`, Specification); by induction on these pieces, with the characters read but not yet passed |
| C98 | cpp-preproc.c: `cpp_build_cmdline` and the functions that add to the list of arguments | how a shell reads words and commands (`Verif/Cpp/Spec.lean`); the buffer is the text cut at the limit, by induction on the arguments |
| C99 | cpp-preproc.c: `cpp_preproc_get_included_file`, called until it returns 0 | rules on one line (`rule`); by induction on the names |
| C100 | yasm.c: `do_generate_make_dependencies`, `dos2unix_slash` | how make reads rules (`Verif/Cpp/Rule.lean`, Specification); by induction on the files, for all lengths of lines |
| C101 | strcasecmp.c: `yasm__strcasecmp`, `yasm__strncasecmp` (the versions without the C library) | the order of dictionaries on strings made small (`Tells`, `small`); by induction on the strings |
| C102 | yasm.c: `replace_extension` and its callers | names as a stem, a dot and an extension without dots; every name is of this form or has no dot (`dots`), then by cases |
| C103 | yasm.c: `opt_warning_handler`, with `Verif/Errwarn/Model.lean` for the mask | which options turn a class on or off (`On`, `Off`, `Told`, `Werror`); by induction on the sequence of options from its end |
| C104 | file.c: `yasm_fopen_include`, `yasm_add_include_path`, on top of the model of paths of C38 | the list of places as text (`places`), a disk as a function of what a path names (`resolve`); by induction on the include paths |
| C105 | file.c: `yasm__createpath_common` (Unix), with stat and mkdir on a set of directories | paths as names with slashes (`dirText`); by induction on the names, with the directories made so far |
| C49–C50 | directive tables (two-level HAMT), `yasm_call_directive`, `yasm_dir_helper` | refinement to "first match in priority order"; induction over parameters |

## Disagreements between the code and the listed properties

Each is a theorem with a concrete witness; the property's main theorem is then `partial` (or restricted to
the inputs where the property holds).

| property | what the code does | theorem(s) |
|----|----|----|
| C02 | poking a line does not restore the mapping in force after it; a NULL file name and a mapping at the first line go wrong | see `Verif/Linemap/Props.lean` |
| C03 | a later parse error on a line overwrites an earlier one and can be reported for the wrong entry | `Verif/Errwarn/Props.lean` |
| C07 | HAMT insertion does not return for two strings that collide at every rehash level | `Hamt.insert_may_diverge` |
| C08–C09 | backwards intervals cache a wrong maximum; endpoints are compared as `int`; a query from LONG_MIN skips right subtrees | `Inttree.insert_backwards`, `enumerate_truncates`, `enumerate_long_min` |
| C10–C16, C44–C45 | 256-bit edge cases of intnum: multiplication overflow, shifts, division by long multiples of 2^32, saturation at 32 bits, check_size beyond 256 bits, LEB128 beyond 252 bits, empty signed buffer, 16-byte string buffer | `Verif/Intnum/Props.lean` |
| C17 | silent overflow of hex/octal/binary, rejection of long decimals and of `-0` | `Verif/Literal/Props.lean` |
| C19–C22 | `1 && x` and `0 \|\| x` keep x unnormalised; folding wrong on overflow; division by zero folds; null dereference, double free and runaway deletion in the tree rewriting | `Verif/Expr/Props.lean` |
| C24, C26 | definition made under a pending error loses its value; common symbols can be defined | `Symtab.pending_error_loses_value`, `common_then_defined`, `last_declaration_line` |
| C28, C30, C31 | non-power-of-two alignment; LC-3b odd padding; zero repeat counts; repeated empty strings; strings in LEB128 data | `Verif/Bytecode/Props.lean` |
| C32 | LC-3b branch range thresholds are in bytes but compared with words | `Optimize.lc3b_branch_too_far` |
| C33, C47 | label-dependent repeat counts can oscillate for ever; negative counts are undiagnosed | `Optimize.times_align_never_ends`, `times_cycle_never_ends`, `negative_times_internal_error` |
| C35 | a `$` reached through EQU is taken for the current position; a shift by -1 is dropped; WRT inside a product loses the factor; WRT of a number is ignored on output; symbols under some operators stay in the absolute part; more than 32 terms stop the assembler | `Value.Props.equ_curpos_wrong`, `shift_negative_wrong`, `wrt_in_product_wrong`, `wrt_number_ignored`, `symbol_left_in_absolute`, `many_terms_fatal` |
| C36 | overflow in the 80-bit format leaves the leading bit clear (a pseudo-infinity); the table entry for 10^-4096 is one unit too low | `Floatnum.extended_overflow_not_infinity`, `table_first_misrounded` |
| C37 | final destruction calls callbacks with NULL; data under two callbacks is destroyed twice | `Assoc.destroy_called_with_null`, `shared_data_destroyed_twice` |
| C38 | "a/./b/f" combined with "../../y" is "a/y"; "foo./f" has head "foo" | `File.comb_dot_wrong`, `comb_dotted_wrong` |
| C39 | `\a` and `\v` decode to letters; `\8` is octal | `File.alert_not_decoded`, `octal_beyond` |
| C42 | `yasm_error_matches` is wrong for GENERAL and NONE | `Verif/Errwarn/Props.lean` |
| C50 | an empty identifier without prefix is read past its end | `Directive.empty_id_overrun` |
| C51 | one is always added to the scaled mantissa (7970e-146 rounds the wrong way in 80 bits); fraction digits beyond the 19th are dropped, so a double just above a midpoint rounds down; denormal values are emitted as zero with an underflow warning | `Floatnum.literal_not_nearest`, `literal_digits_dropped`, `literal_double_not_nearest` |
| C52 | register multipliers of 2^31 or more saturate or wrap (`[eax*0x80000000+eax*2]` becomes `[eax]`); `[2*(eax+1)-2]` leaves the register in the displacement; `[1*(bx+4)]` is rejected in 16-bit mode; `[(b-a)<<1]` and a qword displacement with a 32-bit address size abort with an internal error | `Ea.multiplier_saturates`, `multiplier_wraps`, `register_missed`, `product_rejected_16`, `shifted_difference_aborts`, `qword_displacement_aborts` |
| C56 | a byte displacement out of range (`[byte ebx+200]`) and a 32-bit displacement that sign-extends to another address (`[rbx+0x80000000]`) are emitted without a warning; in flat binary output, the second copy of an instruction with a RIP-relative operand reads from the wrong address, and WRT is silently ignored | `Insn.Props.byte_disp_wraps`, `high_disp_wraps`, `bin_times_rel_wrong`, `bin_ignores_wrt` |
| C57 | the address of the first row is that of the last label before the location, so code between them shifts the whole table; for the assembly source, a label right after the first instruction does; a location with no code after it makes the one before it follow a NULL pointer; `is_stmt=1` clears the flag and `is_stmt=0` sets it; `advance_pc` is not divided by the length of the shortest instruction (no supported machine has one above 1) | `Dwarf.Props.code_before_loc_wrong`, `label_after_first_wrong`, `loc_at_end_crashes`, `is_stmt_inverted`, `min_two_wrong` |
| C58 | a path that ends in a slash gives an empty name, which ends the file table for the reader | `Dwarf.FilesProps.empty_name_wrong` |
| C59 | `align=0` and negative alignments are accepted by the section directive and give wrong addresses; powers of two above 2^32 are refused (`align_wrong`). A `valign` can make the virtual address of a later section misaligned; reporting it dereferences the missing `vstart` (`valign_crash`) |
| C60 | a section 2^31 bytes or more after the origin ends in a fatal seek error though its offset is representable (`far_section_wrong`) |
| C63 | data in a SHT_NOBITS section is dropped without a diagnostic (`nobits_data_lost`); `.rela` sections of 64-bit files lie at multiples of 4 although their headers say 8 (`rela_misaligned`) |
| C64 | `type`/`size` before a declaration lose `--prefix`/`--suffix` (`type_drops_prefix`); `weak` makes the qualifiers of GLOBAL be ignored (`weak_drops_qualifiers`); EXTERN and COMMON override `weak` (`weak_extern_lost`); in 32-bit files, values and sizes of more than 32 bits end in an assertion (`wide_equ_asserts`); sizes and offsets of 64-bit files are cut to 32 bits, and section indices to 16 |
| C65 | `_GLOBAL_OFFSET_TABLE_ - $` in 32-bit code has the offset in the instruction added twice (`got_relative_wrong`); special symbols that only make sense in relative values are accepted in absolute ones, and the other way round (`plt_absolute_wrong`) |
| C66 | `BitVector_Multiply` at a product of magnitude exactly 2^(n-1): (-2^(n-1))·(-1) does not fit but is accepted and gives -2^(n-1); (-2^(n-2))·2 fits but is refused (`multiply_edge`) |
| C69 | in 64-bit mode with `a32`, `mov ebx, eax` becomes A3 with no address (`mov_register_lost`), and `mov [rel x], eax` gets the form with an absolute address (`mov_relative_lost`); `o64` writes 48 over REX, so that `o64 add rbx, r9` adds RCX (`o64_loses_register`); a segment prefix on an instruction without an address but with a prefix or VEX (`cs pause`, `cs vzeroupper`) is an internal error (`segment_prefix_stops`); with GAS `loop %ecx, 5` is one too, and a relative jump with five operands reads behind the array (`gas_loop_stops`, `gas_five_operands_stops`); `loop short 5, cx` is accepted in 64-bit mode (`loop_cx_accepted`) |
| C70 | `pslldq xmm1, xmm2, 5` is accepted without AVX and becomes `pslldq xmm2, 5`: the first register is lost (`pslldq_operand_lost`; `psrldq` has the same group).  The three-operand form of the group has no `onlyavx`, gen_x86_insn.py:5549-5557 |
| C71 | `paddb xmm0, xmm1` is refused as an MMX instruction after `CPU nommx` or `CPU 686 sse2`, though the form needs SSE2 only (`paddb_refused`); `bswap rax` is refused as one of the 486 though its form needs nothing (`bswap_refused`): `cpu_lcd` of gen_x86_insn.py takes the minimum over its first argument twice |
| C72 | A word of more than 15 characters is ignored by CPU without a report (`long_word_ignored`); a number from 2^33 on overflows a buffer of 16 bytes with 21 (`large_number_overflows`); 4294967682 is taken for 386 (`number_taken_for_386`) |
| C73 | `a32 mov ebx, eax` in 64-bit mode is counted as six bytes but written as two (`odd_mov_shorter`; x86id.c:1551-1574 takes a register operand for an address), so that assembly ends in "written length does not match optimized length"; `mov eax, [tword ebx]` is accepted, and counting its bytes ends in "strange EA displacement size" (`strange_size_internal`; nasm-parse.c:1102-1110 takes any size word) |
| C74 | Plain COFF: a section name of more than eight bytes (`.debug_info` with `-g dwarf2`) is written as `/0` (`long_name_lost`; coff-objfmt.c:879 does not test for win32 as 744 does); a section of 65536 relocations or more loses all but 65535 (`many_relocations_lost`); win32 and win64: a section called `/4` cannot be read (`slash_name_lost`); all: data in `.bss` is lost without an error (`bss_data_lost`), ALIGN of more than 8192 is written as 8192 (`large_alignment_lost`) |
| C75 | A global EQU of −1 is written as 0 (`negative_equ_lost`; yasm_intnum_get_uint); `--prefix=_` also renames `.file` and the symbols of the sections (`prefix_on_sections`) |
| C76 | `dw label` in a 32-bit object gets a relocation for 32 bits, which destroys the next two bytes (`word_reference_wide`; coff-objfmt.c:615-619 does not look at the size); `dq label wrt ..imagebase` in win64 gets ADDR64, so that the base is not subtracted (`wide_imagebase_wrong`) |
| C77 | A file that ends inside a skipped branch is accepted without a word (`unclosed_silent`: `error` prints nothing in a dead branch, not even the fatal error); an error in an `%elif` condition is silent and drops the `%else` branch (`elif_error_silent`); a second `%else` is accepted and assembles another branch, even within a part that is skipped (`second_else_assembled`, `skipped_else_assembled`), and so is `%elif` after `%else`; the count of `%rep` is cut to an `int` (`rep_count_truncated`); conditions after `%exitrep` are still evaluated; a word that is no directive but sorts right after `%rep` counts as one within a block (`unknown_word_opens_rep`); `%endm` within `%rep` reads through a null pointer (`endm_in_rep_crashes`) |
| C78 | A nested definition that ends in `%endm` ends the outer one and leaves a counter that breaks the next macro (`endm_ends_outer`, `endm_breaks_later`: only `PP_ENDMACRO` is tested at nasm-pp.c:2418); words that sort right after `%macro`, such as `%note`, count as `%macro` within a definition (`unknown_word_opens_macro`); `%clear` in a macro frees the macro that is being expanded (`clear_in_macro_crashes`) |
| C79 | `%a:b` rotates its loop variable, so that after `%rotate` arguments come in the wrong order or are missing (`range_rotated_wrong`, `range_rotated_missing`); `%0:b` reads before the parameters; `%+k` of a parameter that was not given reads through a null pointer (`missing_condition_crashes`); a condition code in braces is refused; of three identifiers in a row only two are joined |
| C81 | A macro whose body is joined to its own name is expanded for ever (`joined_for_ever`: `%define aa a %+ a`; the rescan at nasm-pp.c:4439 starts with no macro in progress); a call whose parenthesis is opened in another macro reads a token that has been deleted (`opened_elsewhere_freed`: `params[0]` points to the end marker that line 4235 gives back); arguments are not expanded before they are put in, so that `f(f(1))` keeps the inner call (`inner_call_kept`); an argument in braces followed by another is reported as an error (`braces_reported`: a comma does not reset `brackets`) |
| C82 | A stack allocation or offset from 2^32 on is cut off to 32 bits with a warning only (`large_truncated`); `[pushreg xmm3]` is taken as `rbx` (`kind_ignored`); of two `[setframe]` the first is lost without a message (`first_frame_lost`); if `.xdata` already holds data whose length is not a multiple of four, the entry in `.pdata` refers to the padding before the information, since the position is taken before the alignment is appended (`entry_misses`, coff-objfmt.c:2254) |
| C83 | Sections whose type has the lowest bit set, as `.literal4` and `.mod_init_func`, are taken as zero-filled where contents are written (`flags & S_ZEROFILL`, lines 646 and 1012) but not where headers are (line 768): their bytes are lost and the header points to the start of the file (`literals_lost`); the alignment of `.bss` is not written (`alignment_lost`); without symbols the segment command gives a position 24 bytes too low (`segment_misplaced`) |
| C84 | The value of a negative EQU is written as 0 (`negative_lost`); `dq $` in macho64 makes a relocation to a symbol without data and a null pointer is dereferenced at line 674 (`here_crashes`) |
| C85 | In macho32 the number in a relative field leaves out the address of its own section (line 516), so every such reference is wrong by it; the marker section of one byte is always before the code (`relative_off`, `relative_wrong`) |
| C86 | A row that continues shows the address of the first byte of its bytecode (`continued_address_wrong`); a line whose bytecode has no bytes, as an `align` that is met already, is missing (`source_dropped`); `gap` is not set by `yasm_bc_tobytes` if there are no copies, so `times 0` is listed as a gap or not at all by chance (`gap_unset`); of several bytecodes in a line the marks of the first are used for the others (`stale_mark`); a relocation in a bytecode that is not listed hides all later ones of the section (`marks_stuck`) |
| C87 | `$5` is a name but `$05` a number (`forced_digit_witness`); in `absolute $eax + 4` the dollar sign stays in the name (`forced_in_directive_witness`); `absolute @x` is at `x` (`at_in_directive_witness`, there is a warning about the character); `absolute .b` is at a symbol `.b` (`local_in_directive_witness`); after `absolute "a"` labels are not defined, without a report (`absolute_string_witness`); `@@x` is a local label in NASM mode too (`at_at_witness`) |
| C88 | `ld r1,r2,3` loads from offset 2 and `ld r1,r2,64` from offset -64, without a word (`offset_can_be_dropped`, `offset_can_change_sign`); `lshf r1,r2,-1` shifts by 15 (`count_can_be_negative`); the distance is checked in words against limits in bytes, so a jump 600 bytes ahead is assembled to 424 bytes back with a warning (`far_can_be_assembled`); `lc3b_bc_insn_tobytes` changes the value, so that the second time, for the listing, the displacement is one less (`listing_can_differ`); `br` has no flags set (`br_can_be_nothing`) |
| C89 | `x equ -1` has the value 0 in the file and `x equ 100000007h` the value 7, without a word (`equ_lost`); what is put into a section with `bss` is dropped (`bss_data_lost`); `align 65536` makes the alignment 0 (`align_lost`); `dd $` ends in an internal error (`here_ends`); with WRT a relative value is not relative any more (`relative_wrt_lost`); common variables are an error, but an entry is written for each that the header does not count (`common_error`) |
| C90 | `intn_minus` replaces `intn_plus`: a call to a label in another section loses the offset of the label (`relative_lost`); `seg x` is the segment plus the offset of `x` (`segment_wrong`); shifts of values are dropped without a word (`shift_lost`); `extern x` and `global x` together and a reference end the program (`global_extern_ends`); labels in `.bss` have the number of their section although the space is segment 2 (`bss_unplaced`); RDF_MAXSEGS is not checked (`many_sections`) |
| C91 | labels belong to the bytecode before them, and lines count from the start of that bytecode: lines of all but the first function are at wrong addresses (`second_function_wrong`); `stabs_dbgfmt_generate_sections` returns 1, which ends the traversal after the first section (`second_section_lost`); the line in whose middle the first function starts is missing (`first_line_lost`); lines are cut to 16 bits (`line_wraps`); files other than the source are not recorded (`file_lost`); a null section is used if there is no `.text` (`no_text_crashes`) |
| C92 | `-suffix=x` is `-s`, `-objfile=x` is `-o bjfile=x`: the letter of an earlier option is taken before the long name (`one_dash_wrong`); `-syntax` is `-s`, `--version=3` is `--version` (`text_dropped`); `-o -` is an error, and `-` becomes the input (`dash_value`) |
| C93 | The buffer of the CPP preprocessor never grows, and a line of 511 characters or more is an endless loop (`cpp_hangs`); a carriage return hides the rest of its line from raw and GAS (`return_cuts`); a zero character joins a line to the next (`zero_joins`); a line that ends with two backslashes before an empty line is joined to the line after it (`backslash_left`) |
| C94 | `.elseif` does not work at all: after a false condition its branch is skipped whatever its own condition is (`elseif_ignored`), after a true one the assertion of `handle_if` fails (`elseif_crashes`); `.else` after a true branch leaves the depth one too high, so a stray `.endif` is accepted (`stray_endif_silent`) and a stray `.else` removes the rest of the file (`stray_else_skips`); an `.if` that is not closed is not reported (`unclosed_if_silent`); macros are expanded in skipped lines, so recursion under a condition never ends (`recursion_endless`); a second definition of a macro has no effect (`macro_not_redefined`) |
| C95 | Within a comment, a line that starts with `#` or `//` is dropped together with a `*/` on it, so the comment stays open (`hash_keeps_open`); `find_comment` takes the end of a string for the start of the next one, so no comment behind a string is removed and directives in it are acted on (`after_string_kept`); behind a comment strings are not seen, and `/*` in one loses the rest (`second_string_lost`) |
| C96 | `\()` after a parameter is left in the line (`separator_kept`); an argument such as `1 + 2` is split at its white space (`expression_split`); in `\ reg` the blank is replaced and the backslash is left (`blank_replaced`) |
| C97 | words in strings are replaced too: with `a` = 1, `.ascii "a"` stores `1` (`string_changed`); `1a` becomes `11` (`suffix_replaced`) |
| C98 | nothing on the command line of the C preprocessor is quoted: a name with a blank is two arguments (`name_split`), and `-D 'A=1;reboot'` runs `reboot` (`command_run`) |
| C99 | dependencies on more than one line are told with a file named `\` (`continuation_told`), or with the source as an included file (`source_told`); if the C preprocessor writes nothing the loop has no end (`no_output_endless`); names as long as the buffer are cut (`long_name_cut`) |
| C100 | names with blanks are not quoted in the rule (`blank_name_split`) |
| C102 | a source named `.asm` gets an output with an empty name, if the object format has no extension (`empty_name`) |
| C104 | `-I 'inc\'` on Unix: no slash is added, and the current directory is searched instead (`backslash_not_searched`); `-I ''` reads the byte before the string (`empty_path_read`) |
| C105 | for a path from the root, `mkdir("")` is tried first and fails, so no directory is ever made (`root_not_made`); a file where a directory is needed is not told (`file_not_told`) |

## What is modelled and what is not

Modelled, function by function, with citations in the Lean comments: `linemap.c`, `errwarn.c` (diagnostic queue
and propagation), `hamt.c`, `bitvect.c` (the operations intnum and floatnum use, as whole-vector operations and as word loops), `intnum.c`, `expr.c` (construction,
levelling, simplification, ordering, copying), `mergesort.c`-style sorting used by expr, `inttree.c`,
`symrec.c`, `bytecode.c` and the align/org/reserve/data/incbin bytecodes, `section.c` (optimizer, section and
bytecode lists, directive table), `assocdat.c`, `valparam.c` (dispatch and parameter loop),
`value.c`, `x86expr.c`, `x86bc.c`, `x86id.c` (names, and from the parsed operands on; not the perfect hash), `x86cpu.gperf` and the settings in `x86arch.c` (not the perfect hash), the tables of `gen_x86_insn.py`, value output of `bin-objfmt.c`, its section layout, overlap check and file output, the ELF writer (`elf-objfmt.c` from the symbol table on, `elf.c`, `elf-x86-*.c`; not the parsing of section qualifiers), the COFF writer (`coff-objfmt.c` from the values on, for coff, win32 and win64; not the section directive, line numbers and SAFESEH; with the win64 unwind information), the Mach-O writer (`macho-objfmt.c` from the values on; not the section directive), the listing (`nasm-listfmt.c`; the line map is given as the list of lines with their bytecodes), names, labels and absolute sections of the NASM parser (not in TASM mode; lines as lists of tokens), the LC-3b architecture (labels in the same section, given by their distance), XDF object files (not the directives and section attributes), RDF object files (not the section attributes), stabs (not sections `.stab` of the program itself), the command line of yasm (not what the options do), the reading of source lines by the four preprocessors, the block structure, the comments, the parameters of macros and the substitution of symbols of the GAS preprocessor (not its expressions and `.include`), the command line and the dependencies of the external C preprocessor (what that program and the shell do is given), the rule written for make, comparing without regard to case, the default name of the output, the options for warnings, the search for included files, making the directories of a path, the block structure of the NASM preprocessor, the parameters of multi-line macros, the tokeniser and single-line macros (`nasm-pp.c`; not the evaluation of conditions, `%include`, `%define` itself, TASM mode), the expression parsers of `nasm-parse.c`, `gas-parse.c` and `nasm-eval.c`, `dwarf2-line.c` with the unit head of `dwarf2-dbgfmt.c`, `floatnum.c`, `md5.c`, `file.c` (string unescaping, Unix path splitting and combining), the fill tables and
length/expansion callbacks of the x86 and LC-3b architectures.

Not modelled: the lexers and the rest of the parsers, the rest of the preprocessors,
the other object format writers and the other debug formats, memory allocation failure, I/O, and locale handling.  Where a property
involves these only through callbacks, the callbacks are arbitrary functions or satisfy a stated contract.

