/-
The directive tables shipped with the assembler, transcribed from /repo.  Handlers are numbered in order
of their appearance in each file.  Object formats xdf and dbg, debug formats null, stabs and cv8, and
architecture lc3b have no table (NULL).
-/
import Verif.Directive.Model

namespace Verif.Directive.Tables

open Verif.Hamt

/-- modules/arch/x86/x86arch.c:597-604 `x86_directives`. -/
def x86 : List Directive := [
  ⟨[99, 112, 117], [110, 97, 115, 109], 1, 1⟩, /- cpu (nasm) x86_dir_cpu -/
  ⟨[98, 105, 116, 115], [110, 97, 115, 109], 2, 1⟩, /- bits (nasm) x86_dir_bits -/
  ⟨[46, 99, 111, 100, 101, 49, 54], [103, 97, 115], 3, 0⟩, /- .code16 (gas) x86_dir_code16 -/
  ⟨[46, 99, 111, 100, 101, 51, 50], [103, 97, 115], 4, 0⟩, /- .code32 (gas) x86_dir_code32 -/
  ⟨[46, 99, 111, 100, 101, 54, 52], [103, 97, 115], 5, 0⟩ /- .code64 (gas) x86_dir_code64 -/]

/-- modules/objfmts/coff/coff-objfmt.c:2302-2311 `coff_objfmt_directives`. -/
def coff : List Directive := [
  ⟨[46, 105, 100, 101, 110, 116], [103, 97, 115], 6, 0⟩, /- .ident (gas) dir_ident -/
  ⟨[105, 100, 101, 110, 116], [110, 97, 115, 109], 6, 0⟩, /- ident (nasm) dir_ident -/
  ⟨[46, 100, 101, 102], [103, 97, 115], 7, 2⟩, /- .def (gas) dir_def -/
  ⟨[46, 101, 110, 100, 101, 102], [103, 97, 115], 8, 0⟩, /- .endef (gas) dir_endef -/
  ⟨[46, 115, 99, 108], [103, 97, 115], 9, 1⟩, /- .scl (gas) dir_scl -/
  ⟨[46, 116, 121, 112, 101], [103, 97, 115], 10, 1⟩, /- .type (gas) dir_type -/
  ⟨[46, 115, 101, 99, 114, 101, 108, 51, 50], [103, 97, 115], 11, 1⟩ /- .secrel32 (gas) dir_secrel32 -/]

/-- modules/objfmts/coff/coff-objfmt.c:2341-2354 `win32_objfmt_directives`. -/
def win32 : List Directive := [
  ⟨[46, 105, 100, 101, 110, 116], [103, 97, 115], 6, 0⟩, /- .ident (gas) dir_ident -/
  ⟨[105, 100, 101, 110, 116], [110, 97, 115, 109], 6, 0⟩, /- ident (nasm) dir_ident -/
  ⟨[46, 100, 101, 102], [103, 97, 115], 7, 2⟩, /- .def (gas) dir_def -/
  ⟨[46, 101, 110, 100, 101, 102], [103, 97, 115], 8, 0⟩, /- .endef (gas) dir_endef -/
  ⟨[46, 115, 99, 108], [103, 97, 115], 9, 1⟩, /- .scl (gas) dir_scl -/
  ⟨[46, 116, 121, 112, 101], [103, 97, 115], 10, 1⟩, /- .type (gas) dir_type -/
  ⟨[46, 115, 101, 99, 114, 101, 108, 51, 50], [103, 97, 115], 11, 1⟩, /- .secrel32 (gas) dir_secrel32 -/
  ⟨[46, 101, 120, 112, 111, 114, 116], [103, 97, 115], 12, 2⟩, /- .export (gas) dir_export -/
  ⟨[101, 120, 112, 111, 114, 116], [110, 97, 115, 109], 12, 2⟩, /- export (nasm) dir_export -/
  ⟨[46, 115, 97, 102, 101, 115, 101, 104], [103, 97, 115], 13, 2⟩, /- .safeseh (gas) dir_safeseh -/
  ⟨[115, 97, 102, 101, 115, 101, 104], [110, 97, 115, 109], 13, 2⟩ /- safeseh (nasm) dir_safeseh -/]

/-- modules/objfmts/coff/coff-objfmt.c:2391-2420 `win64_objfmt_directives`. -/
def win64 : List Directive := [
  ⟨[46, 105, 100, 101, 110, 116], [103, 97, 115], 6, 0⟩, /- .ident (gas) dir_ident -/
  ⟨[105, 100, 101, 110, 116], [110, 97, 115, 109], 6, 0⟩, /- ident (nasm) dir_ident -/
  ⟨[46, 100, 101, 102], [103, 97, 115], 7, 2⟩, /- .def (gas) dir_def -/
  ⟨[46, 101, 110, 100, 101, 102], [103, 97, 115], 8, 0⟩, /- .endef (gas) dir_endef -/
  ⟨[46, 115, 99, 108], [103, 97, 115], 9, 1⟩, /- .scl (gas) dir_scl -/
  ⟨[46, 116, 121, 112, 101], [103, 97, 115], 10, 1⟩, /- .type (gas) dir_type -/
  ⟨[46, 115, 101, 99, 114, 101, 108, 51, 50], [103, 97, 115], 11, 1⟩, /- .secrel32 (gas) dir_secrel32 -/
  ⟨[46, 101, 120, 112, 111, 114, 116], [103, 97, 115], 12, 2⟩, /- .export (gas) dir_export -/
  ⟨[101, 120, 112, 111, 114, 116], [110, 97, 115, 109], 12, 2⟩, /- export (nasm) dir_export -/
  ⟨[46, 112, 114, 111, 99, 95, 102, 114, 97, 109, 101], [103, 97, 115], 14, 2⟩, /- .proc_frame (gas) dir_proc_frame -/
  ⟨[112, 114, 111, 99, 95, 102, 114, 97, 109, 101], [110, 97, 115, 109], 14, 2⟩, /- proc_frame (nasm) dir_proc_frame -/
  ⟨[46, 112, 117, 115, 104, 114, 101, 103], [103, 97, 115], 15, 1⟩, /- .pushreg (gas) dir_pushreg -/
  ⟨[112, 117, 115, 104, 114, 101, 103], [110, 97, 115, 109], 15, 1⟩, /- pushreg (nasm) dir_pushreg -/
  ⟨[46, 115, 101, 116, 102, 114, 97, 109, 101], [103, 97, 115], 16, 1⟩, /- .setframe (gas) dir_setframe -/
  ⟨[115, 101, 116, 102, 114, 97, 109, 101], [110, 97, 115, 109], 16, 1⟩, /- setframe (nasm) dir_setframe -/
  ⟨[46, 97, 108, 108, 111, 99, 115, 116, 97, 99, 107], [103, 97, 115], 17, 1⟩, /- .allocstack (gas) dir_allocstack -/
  ⟨[97, 108, 108, 111, 99, 115, 116, 97, 99, 107], [110, 97, 115, 109], 17, 1⟩, /- allocstack (nasm) dir_allocstack -/
  ⟨[46, 115, 97, 118, 101, 114, 101, 103], [103, 97, 115], 18, 1⟩, /- .savereg (gas) dir_savereg -/
  ⟨[115, 97, 118, 101, 114, 101, 103], [110, 97, 115, 109], 18, 1⟩, /- savereg (nasm) dir_savereg -/
  ⟨[46, 115, 97, 118, 101, 120, 109, 109, 49, 50, 56], [103, 97, 115], 19, 1⟩, /- .savexmm128 (gas) dir_savexmm128 -/
  ⟨[115, 97, 118, 101, 120, 109, 109, 49, 50, 56], [110, 97, 115, 109], 19, 1⟩, /- savexmm128 (nasm) dir_savexmm128 -/
  ⟨[46, 112, 117, 115, 104, 102, 114, 97, 109, 101], [103, 97, 115], 20, 0⟩, /- .pushframe (gas) dir_pushframe -/
  ⟨[112, 117, 115, 104, 102, 114, 97, 109, 101], [110, 97, 115, 109], 20, 0⟩, /- pushframe (nasm) dir_pushframe -/
  ⟨[46, 101, 110, 100, 112, 114, 111, 108, 111, 103], [103, 97, 115], 21, 0⟩, /- .endprolog (gas) dir_endprolog -/
  ⟨[101, 110, 100, 112, 114, 111, 108, 111, 103], [110, 97, 115, 109], 21, 0⟩, /- endprolog (nasm) dir_endprolog -/
  ⟨[46, 101, 110, 100, 112, 114, 111, 99, 95, 102, 114, 97, 109, 101], [103, 97, 115], 22, 0⟩, /- .endproc_frame (gas) dir_endproc_frame -/
  ⟨[101, 110, 100, 112, 114, 111, 99, 95, 102, 114, 97, 109, 101], [110, 97, 115, 109], 22, 0⟩ /- endproc_frame (nasm) dir_endproc_frame -/]

/-- modules/objfmts/elf/elf-objfmt.c:1292-1302 `elf_objfmt_directives`. -/
def elf : List Directive := [
  ⟨[46, 116, 121, 112, 101], [103, 97, 115], 23, 2⟩, /- .type (gas) dir_type -/
  ⟨[46, 115, 105, 122, 101], [103, 97, 115], 24, 2⟩, /- .size (gas) dir_size -/
  ⟨[46, 119, 101, 97, 107], [103, 97, 115], 25, 2⟩, /- .weak (gas) dir_weak -/
  ⟨[46, 105, 100, 101, 110, 116], [103, 97, 115], 26, 0⟩, /- .ident (gas) dir_ident -/
  ⟨[116, 121, 112, 101], [110, 97, 115, 109], 23, 2⟩, /- type (nasm) dir_type -/
  ⟨[115, 105, 122, 101], [110, 97, 115, 109], 24, 2⟩, /- size (nasm) dir_size -/
  ⟨[119, 101, 97, 107], [110, 97, 115, 109], 25, 2⟩, /- weak (nasm) dir_weak -/
  ⟨[105, 100, 101, 110, 116], [110, 97, 115, 109], 26, 0⟩ /- ident (nasm) dir_ident -/]

/-- modules/objfmts/macho/macho-objfmt.c:1650-1654 `macho_objfmt_directives`. -/
def macho : List Directive := [
  ⟨[46, 98, 117, 105, 108, 100, 118, 101, 114, 115, 105, 111, 110], [103, 97, 115], 27, 0⟩, /- .buildversion (gas) dir_buildversion -/
  ⟨[98, 117, 105, 108, 100, 118, 101, 114, 115, 105, 111, 110], [110, 97, 115, 109], 27, 0⟩ /- buildversion (nasm) dir_buildversion -/]

/-- modules/objfmts/rdf/rdf-objfmt.c:1049-1053 `rdf_objfmt_directives`. -/
def rdf : List Directive := [
  ⟨[108, 105, 98, 114, 97, 114, 121], [110, 97, 115, 109], 28, 1⟩, /- library (nasm) dir_library -/
  ⟨[109, 111, 100, 117, 108, 101], [110, 97, 115, 109], 29, 1⟩ /- module (nasm) dir_module -/]

/-- modules/objfmts/bin/bin-objfmt.c:1786-1790 `bin_objfmt_directives`. -/
def bin : List Directive := [
  ⟨[111, 114, 103], [110, 97, 115, 109], 30, 1⟩, /- org (nasm) bin_objfmt_dir_org -/
  ⟨[109, 97, 112], [110, 97, 115, 109], 31, 0⟩ /- map (nasm) bin_objfmt_dir_map -/]

/-- modules/dbgfmts/dwarf2/dwarf2-dbgfmt.c:332-338 `dwarf2_directives`. -/
def dwarf2 : List Directive := [
  ⟨[46, 108, 111, 99], [103, 97, 115], 32, 1⟩, /- .loc (gas) yasm_dwarf2__dir_loc -/
  ⟨[46, 102, 105, 108, 101], [103, 97, 115], 33, 1⟩, /- .file (gas) yasm_dwarf2__dir_file -/
  ⟨[108, 111, 99], [110, 97, 115, 109], 32, 1⟩, /- loc (nasm) yasm_dwarf2__dir_loc -/
  ⟨[102, 105, 108, 101], [110, 97, 115, 109], 33, 1⟩ /- file (nasm) yasm_dwarf2__dir_file -/]

/-- libyasm/section.c:180-191 `object_directives`. -/
def builtin : List Directive := [
  ⟨[46, 101, 120, 116, 101, 114, 110], [103, 97, 115], 34, 2⟩, /- .extern (gas) dir_extern -/
  ⟨[46, 103, 108, 111, 98, 97, 108], [103, 97, 115], 35, 2⟩, /- .global (gas) dir_global -/
  ⟨[46, 103, 108, 111, 98, 108], [103, 97, 115], 35, 2⟩, /- .globl (gas) dir_global -/
  ⟨[46, 112, 114, 105, 118, 97, 116, 101, 95, 101, 120, 116, 101, 114, 110], [103, 97, 115], 36, 2⟩, /- .private_extern (gas) dir_privextern -/
  ⟨[101, 120, 116, 101, 114, 110], [110, 97, 115, 109], 34, 2⟩, /- extern (nasm) dir_extern -/
  ⟨[103, 108, 111, 98, 97, 108], [110, 97, 115, 109], 35, 2⟩, /- global (nasm) dir_global -/
  ⟨[99, 111, 109, 109, 111, 110], [110, 97, 115, 109], 37, 2⟩, /- common (nasm) dir_common -/
  ⟨[115, 101, 99, 116, 105, 111, 110], [110, 97, 115, 109], 38, 1⟩, /- section (nasm) dir_section -/
  ⟨[115, 101, 103, 109, 101, 110, 116], [110, 97, 115, 109], 38, 1⟩ /- segment (nasm) dir_section -/]

/-- Object formats (those without a table share the empty one). -/
def objfmts : List (List Directive) := [[], coff, win32, win64, elf, macho, rdf, bin]

/-- Debug formats. -/
def dbgfmts : List (List Directive) := [[], dwarf2]

/-- Architectures. -/
def archs : List (List Directive) := [[], x86]

end Verif.Directive.Tables
