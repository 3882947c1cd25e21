/-
The table of modules/arch/x86/gen_x86_insn.py: the calls of `add_insn`, with its loops written out.  Made by reading the syntax tree
of the script; nothing but literals and the arithmetic on them is evaluated.
-/
import Verif.Match.Gen

namespace Verif.Match

/-- gen_x86_insn.py:1013-3682. -/
def names0 : List RawInsn :=
  [ { name := "mov", group := 8 },
    { name := "movabs", group := 9, gasOnly := true },
    { name := "movsbw", group := 10, suffix := some .b, modifiers := [0xBE] },
    { name := "movsbl", group := 10, suffix := some .b, modifiers := [0xBE] },
    { name := "movswl", group := 10, suffix := some .w, modifiers := [0xBE] },
    { name := "movsbq", group := 10, suffix := some .b, modifiers := [0xBE], only64 := true },
    { name := "movswq", group := 10, suffix := some .w, modifiers := [0xBE], only64 := true },
    { name := "movsx", group := 10, modifiers := [0xBE] },
    { name := "movzbw", group := 10, suffix := some .b, modifiers := [0xB6] },
    { name := "movzbl", group := 10, suffix := some .b, modifiers := [0xB6] },
    { name := "movzwl", group := 10, suffix := some .w, modifiers := [0xB6] },
    { name := "movzbq", group := 10, suffix := some .b, modifiers := [0xB6], only64 := true },
    { name := "movzwq", group := 10, suffix := some .w, modifiers := [0xB6], only64 := true },
    { name := "movzx", group := 10, modifiers := [0xB6] },
    { name := "movslq", group := 11, suffix := some .l },
    { name := "movsxd", group := 11, nasmOnly := true },
    { name := "push", group := 12 },
    { name := "pusha", group := 2, modifiers := [0x60, 0x00], cpu := some [1], not64 := true },
    { name := "pushad", group := 2, modifiers := [0x60, 0x20], nasmOnly := true, cpu := some [3], not64 := true },
    { name := "pushal", group := 2, modifiers := [0x60, 0x20], gasOnly := true, cpu := some [3], not64 := true },
    { name := "pushaw", group := 2, modifiers := [0x60, 0x10], cpu := some [1], not64 := true },
    { name := "pop", group := 13 },
    { name := "popa", group := 2, modifiers := [0x61, 0x00], cpu := some [1], not64 := true },
    { name := "popad", group := 2, modifiers := [0x61, 0x20], nasmOnly := true, cpu := some [3], not64 := true },
    { name := "popal", group := 2, modifiers := [0x61, 0x20], gasOnly := true, cpu := some [3], not64 := true },
    { name := "popaw", group := 2, modifiers := [0x61, 0x10], cpu := some [1], not64 := true },
    { name := "xchg", group := 14 },
    { name := "in", group := 15 },
    { name := "out", group := 16 },
    { name := "lea", group := 17 },
    { name := "lds", group := 18, modifiers := [0xC5] },
    { name := "les", group := 18, modifiers := [0xC4] },
    { name := "lfs", group := 19, modifiers := [0xB4] },
    { name := "lgs", group := 19, modifiers := [0xB5] },
    { name := "lss", group := 19, modifiers := [0xB2] },
    { name := "clc", group := 2, modifiers := [0xF8] },
    { name := "cld", group := 2, modifiers := [0xFC] },
    { name := "cli", group := 2, modifiers := [0xFA] },
    { name := "clts", group := 4, modifiers := [0x0F, 0x06], cpu := some [2, 25] },
    { name := "cmc", group := 2, modifiers := [0xF5] },
    { name := "lahf", group := 2, modifiers := [0x9F] },
    { name := "sahf", group := 2, modifiers := [0x9E] },
    { name := "pushf", group := 2, modifiers := [0x9C, 0x00, 0x40] },
    { name := "pushfd", group := 2, modifiers := [0x9C, 0x20], nasmOnly := true, cpu := some [3], not64 := true },
    { name := "pushfl", group := 2, modifiers := [0x9C, 0x20], gasOnly := true, cpu := some [3], not64 := true },
    { name := "pushfw", group := 2, modifiers := [0x9C, 0x10, 0x40] },
    { name := "pushfq", group := 2, modifiers := [0x9C, 0x40, 0x40], only64 := true },
    { name := "popf", group := 2, modifiers := [0x9D, 0x00, 0x40] },
    { name := "popfd", group := 2, modifiers := [0x9D, 0x20], nasmOnly := true, cpu := some [3], not64 := true },
    { name := "popfl", group := 2, modifiers := [0x9D, 0x20], gasOnly := true, cpu := some [3], not64 := true },
    { name := "popfw", group := 2, modifiers := [0x9D, 0x10, 0x40] },
    { name := "popfq", group := 2, modifiers := [0x9D, 0x40, 0x40], only64 := true },
    { name := "stc", group := 2, modifiers := [0xF9] },
    { name := "std", group := 2, modifiers := [0xFD] },
    { name := "sti", group := 2, modifiers := [0xFB] },
    { name := "add", group := 20, modifiers := [0x00, 0x00] },
    { name := "or", group := 20, modifiers := [0x08, 0x01] },
    { name := "adc", group := 20, modifiers := [0x10, 0x02] },
    { name := "sbb", group := 20, modifiers := [0x18, 0x03] },
    { name := "and", group := 20, modifiers := [0x20, 0x04] },
    { name := "sub", group := 20, modifiers := [0x28, 0x05] },
    { name := "xor", group := 20, modifiers := [0x30, 0x06] },
    { name := "cmp", group := 20, modifiers := [0x38, 0x07] },
    { name := "inc", group := 21, modifiers := [0x40, 0x00] },
    { name := "dec", group := 21, modifiers := [0x48, 0x01] },
    { name := "not", group := 22, modifiers := [0x02] },
    { name := "neg", group := 22, modifiers := [0x03] },
    { name := "mul", group := 22, modifiers := [0x04] },
    { name := "div", group := 23, modifiers := [0x06] },
    { name := "idiv", group := 23, modifiers := [0x07] },
    { name := "test", group := 24 },
    { name := "aaa", group := 2, modifiers := [0x37], not64 := true },
    { name := "aas", group := 2, modifiers := [0x3F], not64 := true },
    { name := "daa", group := 2, modifiers := [0x27], not64 := true },
    { name := "das", group := 2, modifiers := [0x2F], not64 := true },
    { name := "aad", group := 25, modifiers := [0x01], not64 := true },
    { name := "aam", group := 25, modifiers := [0x00], not64 := true },
    { name := "cbw", group := 2, modifiers := [0x98, 0x10] },
    { name := "cwde", group := 2, modifiers := [0x98, 0x20], cpu := some [3] },
    { name := "cdqe", group := 2, modifiers := [0x98, 0x40], only64 := true },
    { name := "cwd", group := 2, modifiers := [0x99, 0x10] },
    { name := "cdq", group := 2, modifiers := [0x99, 0x20], cpu := some [3] },
    { name := "cqo", group := 2, modifiers := [0x99, 0x40], only64 := true },
    { name := "cbtw", group := 2, modifiers := [0x98, 0x10], gasOnly := true },
    { name := "cwtl", group := 2, modifiers := [0x98, 0x20], gasOnly := true, cpu := some [3] },
    { name := "cltq", group := 2, modifiers := [0x98, 0x40], gasOnly := true, only64 := true },
    { name := "cwtd", group := 2, modifiers := [0x99, 0x10], gasOnly := true },
    { name := "cltd", group := 2, modifiers := [0x99, 0x20], gasOnly := true, cpu := some [3] },
    { name := "cqto", group := 2, modifiers := [0x99, 0x40], gasOnly := true, only64 := true },
    { name := "imul", group := 26 },
    { name := "rol", group := 27, modifiers := [0x00] },
    { name := "ror", group := 27, modifiers := [0x01] },
    { name := "rcl", group := 27, modifiers := [0x02] },
    { name := "rcr", group := 27, modifiers := [0x03] },
    { name := "sal", group := 27, modifiers := [0x04] },
    { name := "shl", group := 27, modifiers := [0x04] },
    { name := "shr", group := 27, modifiers := [0x05] },
    { name := "sar", group := 27, modifiers := [0x07] },
    { name := "shld", group := 28, modifiers := [0xA4] },
    { name := "shrd", group := 28, modifiers := [0xAC] },
    { name := "call", group := 29 },
    { name := "jmp", group := 30 },
    { name := "ljmp", group := 31, modifiers := [0x05, 0xEA], gasOnly := true },
    { name := "lcall", group := 31, modifiers := [0x03, 0x9A], gasOnly := true },
    { name := "ret", group := 32, modifiers := [0xC2] },
    { name := "retw", group := 32, modifiers := [0xC2, 0x10], gasOnly := true },
    { name := "retl", group := 32, modifiers := [0xC2], gasOnly := true, not64 := true },
    { name := "retq", group := 32, modifiers := [0xC2], gasOnly := true, only64 := true },
    { name := "retn", group := 32, modifiers := [0xC2], nasmOnly := true },
    { name := "retf", group := 32, modifiers := [0xCA, 0x40], nasmOnly := true },
    { name := "lret", group := 32, suffix := some .z, modifiers := [0xCA], gasOnly := true },
    { name := "lretw", group := 32, suffix := some .w, modifiers := [0xCA, 0x10], gasOnly := true },
    { name := "lretl", group := 32, suffix := some .l, modifiers := [0xCA], gasOnly := true },
    { name := "lretq", group := 32, suffix := some .q, modifiers := [0xCA, 0x40], gasOnly := true, only64 := true },
    { name := "enter", group := 33 },
    { name := "leave", group := 2, modifiers := [0xC9, 0x00, 0x40], cpu := some [1] },
    { name := "leavew", group := 2, modifiers := [0xC9, 0x10, 0x00], gasOnly := true, cpu := some [1] },
    { name := "leavel", group := 2, modifiers := [0xC9, 0x00, 0x40], gasOnly := true, cpu := some [1] },
    { name := "leaveq", group := 2, modifiers := [0xC9, 0x00, 0x40], gasOnly := true, only64 := true },
    { name := "jo", group := 34, modifiers := [0x00] },
    { name := "jno", group := 34, modifiers := [0x01] },
    { name := "jb", group := 34, modifiers := [0x02] },
    { name := "jc", group := 34, modifiers := [0x02] },
    { name := "jnae", group := 34, modifiers := [0x02] },
    { name := "jnb", group := 34, modifiers := [0x03] },
    { name := "jnc", group := 34, modifiers := [0x03] },
    { name := "jae", group := 34, modifiers := [0x03] },
    { name := "je", group := 34, modifiers := [0x04] },
    { name := "jz", group := 34, modifiers := [0x04] },
    { name := "jne", group := 34, modifiers := [0x05] },
    { name := "jnz", group := 34, modifiers := [0x05] },
    { name := "jbe", group := 34, modifiers := [0x06] },
    { name := "jna", group := 34, modifiers := [0x06] },
    { name := "jnbe", group := 34, modifiers := [0x07] },
    { name := "ja", group := 34, modifiers := [0x07] },
    { name := "js", group := 34, modifiers := [0x08] },
    { name := "jns", group := 34, modifiers := [0x09] },
    { name := "jp", group := 34, modifiers := [0x0A] },
    { name := "jpe", group := 34, modifiers := [0x0A] },
    { name := "jnp", group := 34, modifiers := [0x0B] },
    { name := "jpo", group := 34, modifiers := [0x0B] },
    { name := "jl", group := 34, modifiers := [0x0C] },
    { name := "jnge", group := 34, modifiers := [0x0C] },
    { name := "jnl", group := 34, modifiers := [0x0D] },
    { name := "jge", group := 34, modifiers := [0x0D] },
    { name := "jle", group := 34, modifiers := [0x0E] },
    { name := "jng", group := 34, modifiers := [0x0E] },
    { name := "jnle", group := 34, modifiers := [0x0F] },
    { name := "jg", group := 34, modifiers := [0x0F] },
    { name := "jcxz", group := 35, modifiers := [0x10] },
    { name := "jecxz", group := 35, modifiers := [0x20], cpu := some [3] },
    { name := "jrcxz", group := 35, modifiers := [0x40], only64 := true },
    { name := "loop", group := 36, modifiers := [0x02] },
    { name := "loopz", group := 36, modifiers := [0x01] },
    { name := "loope", group := 36, modifiers := [0x01] },
    { name := "loopnz", group := 36, modifiers := [0x00] },
    { name := "loopne", group := 36, modifiers := [0x00] },
    { name := "loopw", group := 37, modifiers := [0x02, 0x10], gasOnly := true },
    { name := "loopzw", group := 37, modifiers := [0x01, 0x10], gasOnly := true },
    { name := "loopew", group := 37, modifiers := [0x01, 0x10], gasOnly := true },
    { name := "loopnzw", group := 37, modifiers := [0x00, 0x10], gasOnly := true },
    { name := "loopnew", group := 37, modifiers := [0x00, 0x10], gasOnly := true },
    { name := "loopl", group := 38, modifiers := [0x02, 0x20], gasOnly := true },
    { name := "loopzl", group := 38, modifiers := [0x01, 0x20], gasOnly := true },
    { name := "loopel", group := 38, modifiers := [0x01, 0x20], gasOnly := true },
    { name := "loopnzl", group := 38, modifiers := [0x00, 0x20], gasOnly := true },
    { name := "loopnel", group := 38, modifiers := [0x00, 0x20], gasOnly := true },
    { name := "loopq", group := 39, modifiers := [0x02, 0x40], gasOnly := true },
    { name := "loopzq", group := 39, modifiers := [0x01, 0x40], gasOnly := true },
    { name := "loopeq", group := 39, modifiers := [0x01, 0x40], gasOnly := true },
    { name := "loopnzq", group := 39, modifiers := [0x00, 0x40], gasOnly := true },
    { name := "loopneq", group := 39, modifiers := [0x00, 0x40], gasOnly := true },
    { name := "seto", group := 40, modifiers := [0x00] },
    { name := "setno", group := 40, modifiers := [0x01] },
    { name := "setb", group := 40, modifiers := [0x02] },
    { name := "setc", group := 40, modifiers := [0x02] },
    { name := "setnae", group := 40, modifiers := [0x02] },
    { name := "setnb", group := 40, modifiers := [0x03] },
    { name := "setnc", group := 40, modifiers := [0x03] },
    { name := "setae", group := 40, modifiers := [0x03] },
    { name := "sete", group := 40, modifiers := [0x04] },
    { name := "setz", group := 40, modifiers := [0x04] },
    { name := "setne", group := 40, modifiers := [0x05] },
    { name := "setnz", group := 40, modifiers := [0x05] },
    { name := "setbe", group := 40, modifiers := [0x06] },
    { name := "setna", group := 40, modifiers := [0x06] },
    { name := "setnbe", group := 40, modifiers := [0x07] },
    { name := "seta", group := 40, modifiers := [0x07] },
    { name := "sets", group := 40, modifiers := [0x08] },
    { name := "setns", group := 40, modifiers := [0x09] },
    { name := "setp", group := 40, modifiers := [0x0A] },
    { name := "setpe", group := 40, modifiers := [0x0A] },
    { name := "setnp", group := 40, modifiers := [0x0B] },
    { name := "setpo", group := 40, modifiers := [0x0B] },
    { name := "setl", group := 40, modifiers := [0x0C] },
    { name := "setnge", group := 40, modifiers := [0x0C] },
    { name := "setnl", group := 40, modifiers := [0x0D] },
    { name := "setge", group := 40, modifiers := [0x0D] },
    { name := "setle", group := 40, modifiers := [0x0E] },
    { name := "setng", group := 40, modifiers := [0x0E] },
    { name := "setnle", group := 40, modifiers := [0x0F] },
    { name := "setg", group := 40, modifiers := [0x0F] },
    { name := "cmpsb", group := 2, modifiers := [0xA6, 0x00] },
    { name := "cmpsw", group := 2, modifiers := [0xA7, 0x10] },
    { name := "cmpsd", group := 41, cpu := some [] },
    { name := "cmpsl", group := 2, modifiers := [0xA7, 0x20], gasOnly := true, cpu := some [3] },
    { name := "cmpsq", group := 2, modifiers := [0xA7, 0x40], only64 := true },
    { name := "insb", group := 2, modifiers := [0x6C, 0x00] },
    { name := "insw", group := 2, modifiers := [0x6D, 0x10] },
    { name := "insd", group := 2, modifiers := [0x6D, 0x20], nasmOnly := true, cpu := some [3] },
    { name := "insl", group := 2, modifiers := [0x6D, 0x20], gasOnly := true, cpu := some [3] },
    { name := "outsb", group := 2, modifiers := [0x6E, 0x00] },
    { name := "outsw", group := 2, modifiers := [0x6F, 0x10] },
    { name := "outsd", group := 2, modifiers := [0x6F, 0x20], nasmOnly := true, cpu := some [3] },
    { name := "outsl", group := 2, modifiers := [0x6F, 0x20], gasOnly := true, cpu := some [3] },
    { name := "lodsb", group := 2, modifiers := [0xAC, 0x00] },
    { name := "lodsw", group := 2, modifiers := [0xAD, 0x10] },
    { name := "lodsd", group := 2, modifiers := [0xAD, 0x20], nasmOnly := true, cpu := some [3] },
    { name := "lodsl", group := 2, modifiers := [0xAD, 0x20], gasOnly := true, cpu := some [3] },
    { name := "lodsq", group := 2, modifiers := [0xAD, 0x40], only64 := true },
    { name := "movsb", group := 2, modifiers := [0xA4, 0x00] },
    { name := "movsw", group := 2, modifiers := [0xA5, 0x10] },
    { name := "movsd", group := 42, cpu := some [3] },
    { name := "movsl", group := 2, modifiers := [0xA5, 0x20], gasOnly := true, cpu := some [3] },
    { name := "movsq", group := 2, modifiers := [0xA5, 0x40], only64 := true },
    { name := "smovb", group := 2, modifiers := [0xA4, 0x00], gasOnly := true },
    { name := "smovw", group := 2, modifiers := [0xA5, 0x10], gasOnly := true },
    { name := "smovl", group := 2, modifiers := [0xA5, 0x20], gasOnly := true, cpu := some [3] },
    { name := "smovq", group := 2, modifiers := [0xA5, 0x40], gasOnly := true, only64 := true },
    { name := "scasb", group := 2, modifiers := [0xAE, 0x00] },
    { name := "scasw", group := 2, modifiers := [0xAF, 0x10] },
    { name := "scasd", group := 2, modifiers := [0xAF, 0x20], nasmOnly := true, cpu := some [3] },
    { name := "scasl", group := 2, modifiers := [0xAF, 0x20], gasOnly := true, cpu := some [3] },
    { name := "scasq", group := 2, modifiers := [0xAF, 0x40], only64 := true },
    { name := "sscab", group := 2, modifiers := [0xAE, 0x00], gasOnly := true },
    { name := "sscaw", group := 2, modifiers := [0xAF, 0x10], gasOnly := true },
    { name := "sscal", group := 2, modifiers := [0xAF, 0x20], gasOnly := true, cpu := some [3] },
    { name := "sscaq", group := 2, modifiers := [0xAF, 0x40], gasOnly := true, only64 := true },
    { name := "stosb", group := 2, modifiers := [0xAA, 0x00] },
    { name := "stosw", group := 2, modifiers := [0xAB, 0x10] },
    { name := "stosd", group := 2, modifiers := [0xAB, 0x20], nasmOnly := true, cpu := some [3] },
    { name := "stosl", group := 2, modifiers := [0xAB, 0x20], gasOnly := true, cpu := some [3] },
    { name := "stosq", group := 2, modifiers := [0xAB, 0x40], only64 := true },
    { name := "xlatb", group := 2, modifiers := [0xD7, 0x00] },
    { name := "bt", group := 43, modifiers := [0xA3, 0x04] },
    { name := "bts", group := 43, modifiers := [0xAB, 0x05] },
    { name := "btr", group := 43, modifiers := [0xB3, 0x06] },
    { name := "btc", group := 43, modifiers := [0xBB, 0x07] },
    { name := "bsf", group := 44, modifiers := [0xBC], cpu := some [3] },
    { name := "bsr", group := 44, modifiers := [0xBD], cpu := some [3] },
    { name := "int", group := 45 },
    { name := "int3", group := 2, modifiers := [0xCC] },
    { name := "int03", group := 2, modifiers := [0xCC], nasmOnly := true },
    { name := "into", group := 2, modifiers := [0xCE], not64 := true },
    { name := "iret", group := 2, modifiers := [0xCF] },
    { name := "iretw", group := 2, modifiers := [0xCF, 0x10] },
    { name := "iretd", group := 2, modifiers := [0xCF, 0x20], nasmOnly := true, cpu := some [3] },
    { name := "iretl", group := 2, modifiers := [0xCF, 0x20], gasOnly := true, cpu := some [3] },
    { name := "iretq", group := 2, modifiers := [0xCF, 0x40], only64 := true },
    { name := "rsm", group := 4, modifiers := [0x0F, 0xAA], cpu := some [5, 21] },
    { name := "bound", group := 46 },
    { name := "hlt", group := 2, modifiers := [0xF4], cpu := some [25] },
    { name := "nop", group := 2, modifiers := [0x90] },
    { name := "lar", group := 47, modifiers := [0x02], cpu := some [2, 22] },
    { name := "lsl", group := 47, modifiers := [0x03], cpu := some [2, 22] },
    { name := "arpl", group := 48 },
    { name := "lgdt", group := 7, modifiers := [0x02, 0x0F, 0x01], cpu := some [2, 25] },
    { name := "lidt", group := 7, modifiers := [0x03, 0x0F, 0x01], cpu := some [2, 25] },
    { name := "sgdt", group := 7, modifiers := [0x00, 0x0F, 0x01], cpu := some [2, 25] },
    { name := "sidt", group := 7, modifiers := [0x01, 0x0F, 0x01], cpu := some [2, 25] },
    { name := "lgdtw", group := 7, suffix := some .w, modifiers := [0x02, 0x0F, 0x01], cpu := some [2, 25] },
    { name := "lidtw", group := 7, suffix := some .w, modifiers := [0x03, 0x0F, 0x01], cpu := some [2, 25] },
    { name := "sgdtw", group := 7, suffix := some .w, modifiers := [0x00, 0x0F, 0x01], cpu := some [2, 25] },
    { name := "sidtw", group := 7, suffix := some .w, modifiers := [0x01, 0x0F, 0x01], cpu := some [2, 25] },
    { name := "lgdtl", group := 7, suffix := some .l, modifiers := [0x02, 0x0F, 0x01], cpu := some [2, 25] },
    { name := "lidtl", group := 7, suffix := some .l, modifiers := [0x03, 0x0F, 0x01], cpu := some [2, 25] },
    { name := "sgdtl", group := 7, suffix := some .l, modifiers := [0x00, 0x0F, 0x01], cpu := some [2, 25] },
    { name := "sidtl", group := 7, suffix := some .l, modifiers := [0x01, 0x0F, 0x01], cpu := some [2, 25] },
    { name := "lgdtq", group := 7, suffix := some .q, modifiers := [0x02, 0x0F, 0x01], cpu := some [2, 25] },
    { name := "lidtq", group := 7, suffix := some .q, modifiers := [0x03, 0x0F, 0x01], cpu := some [2, 25] },
    { name := "sgdtq", group := 7, suffix := some .q, modifiers := [0x00, 0x0F, 0x01], cpu := some [2, 25] },
    { name := "sidtq", group := 7, suffix := some .q, modifiers := [0x01, 0x0F, 0x01], cpu := some [2, 25] },
    { name := "str", group := 49 },
    { name := "lldt", group := 50, modifiers := [0x02, 0x00], cpu := some [2, 22, 25] },
    { name := "ltr", group := 50, modifiers := [0x03, 0x00], cpu := some [2, 22, 25] },
    { name := "verr", group := 50, modifiers := [0x04, 0x00], cpu := some [2, 22] },
    { name := "verw", group := 50, modifiers := [0x05, 0x00], cpu := some [2, 22] },
    { name := "lmsw", group := 50, modifiers := [0x06, 0x01], cpu := some [2, 25] },
    { name := "sldt", group := 51, modifiers := [0x00, 0x00] },
    { name := "smsw", group := 51, modifiers := [0x04, 0x01] },
    { name := "fcompp", group := 4, modifiers := [0xDE, 0xD9], cpu := some [13] },
    { name := "fucompp", group := 4, modifiers := [0xDA, 0xE9], cpu := some [2, 13] },
    { name := "ftst", group := 4, modifiers := [0xD9, 0xE4], cpu := some [13] },
    { name := "fxam", group := 4, modifiers := [0xD9, 0xE5], cpu := some [13] },
    { name := "fld1", group := 4, modifiers := [0xD9, 0xE8], cpu := some [13] },
    { name := "fldl2t", group := 4, modifiers := [0xD9, 0xE9], cpu := some [13] },
    { name := "fldl2e", group := 4, modifiers := [0xD9, 0xEA], cpu := some [13] },
    { name := "fldpi", group := 4, modifiers := [0xD9, 0xEB], cpu := some [13] },
    { name := "fldlg2", group := 4, modifiers := [0xD9, 0xEC], cpu := some [13] },
    { name := "fldln2", group := 4, modifiers := [0xD9, 0xED], cpu := some [13] },
    { name := "fldz", group := 4, modifiers := [0xD9, 0xEE], cpu := some [13] },
    { name := "f2xm1", group := 4, modifiers := [0xD9, 0xF0], cpu := some [13] },
    { name := "fyl2x", group := 4, modifiers := [0xD9, 0xF1], cpu := some [13] },
    { name := "fptan", group := 4, modifiers := [0xD9, 0xF2], cpu := some [13] },
    { name := "fpatan", group := 4, modifiers := [0xD9, 0xF3], cpu := some [13] },
    { name := "fxtract", group := 4, modifiers := [0xD9, 0xF4], cpu := some [13] },
    { name := "fprem1", group := 4, modifiers := [0xD9, 0xF5], cpu := some [2, 13] },
    { name := "fdecstp", group := 4, modifiers := [0xD9, 0xF6], cpu := some [13] },
    { name := "fincstp", group := 4, modifiers := [0xD9, 0xF7], cpu := some [13] },
    { name := "fprem", group := 4, modifiers := [0xD9, 0xF8], cpu := some [13] },
    { name := "fyl2xp1", group := 4, modifiers := [0xD9, 0xF9], cpu := some [13] },
    { name := "fsqrt", group := 4, modifiers := [0xD9, 0xFA], cpu := some [13] },
    { name := "fsincos", group := 4, modifiers := [0xD9, 0xFB], cpu := some [2, 13] },
    { name := "frndint", group := 4, modifiers := [0xD9, 0xFC], cpu := some [13] },
    { name := "fscale", group := 4, modifiers := [0xD9, 0xFD], cpu := some [13] },
    { name := "fsin", group := 4, modifiers := [0xD9, 0xFE], cpu := some [2, 13] },
    { name := "fcos", group := 4, modifiers := [0xD9, 0xFF], cpu := some [2, 13] },
    { name := "fchs", group := 4, modifiers := [0xD9, 0xE0], cpu := some [13] },
    { name := "fabs", group := 4, modifiers := [0xD9, 0xE1], cpu := some [13] },
    { name := "fninit", group := 4, modifiers := [0xDB, 0xE3], cpu := some [13] },
    { name := "finit", group := 5, modifiers := [0x9B, 0xDB, 0xE3], cpu := some [13] },
    { name := "fnclex", group := 4, modifiers := [0xDB, 0xE2], cpu := some [13] },
    { name := "fclex", group := 5, modifiers := [0x9B, 0xDB, 0xE2], cpu := some [13] },
    { name := "fnstenv", group := 6, modifiers := [0x06, 0xD9], cpu := some [13] },
    { name := "fstenv", group := 7, modifiers := [0x06, 0x9B, 0xD9], cpu := some [13] },
    { name := "fldenv", group := 6, modifiers := [0x04, 0xD9], cpu := some [13] },
    { name := "fnsave", group := 6, modifiers := [0x06, 0xDD], cpu := some [13] },
    { name := "fsave", group := 7, modifiers := [0x06, 0x9B, 0xDD], cpu := some [13] },
    { name := "frstor", group := 6, modifiers := [0x04, 0xDD], cpu := some [13] },
    { name := "fnstenvl", group := 6, suffix := some .l, modifiers := [0x06, 0xD9], cpu := some [13] },
    { name := "fstenvl", group := 7, suffix := some .l, modifiers := [0x06, 0x9B, 0xD9], cpu := some [13] },
    { name := "fldenvl", group := 6, suffix := some .l, modifiers := [0x04, 0xD9], cpu := some [13] },
    { name := "fnsavel", group := 6, suffix := some .l, modifiers := [0x06, 0xDD], cpu := some [13] },
    { name := "fsavel", group := 7, suffix := some .l, modifiers := [0x06, 0x9B, 0xDD], cpu := some [13] },
    { name := "frstorl", group := 6, suffix := some .l, modifiers := [0x04, 0xDD], cpu := some [13] },
    { name := "fnstenvs", group := 6, suffix := some .s, modifiers := [0x06, 0xD9], cpu := some [13] },
    { name := "fstenvs", group := 7, suffix := some .s, modifiers := [0x06, 0x9B, 0xD9], cpu := some [13] },
    { name := "fldenvs", group := 6, suffix := some .s, modifiers := [0x04, 0xD9], cpu := some [13] },
    { name := "fnsaves", group := 6, suffix := some .s, modifiers := [0x06, 0xDD], cpu := some [13] },
    { name := "fsaves", group := 7, suffix := some .s, modifiers := [0x06, 0x9B, 0xDD], cpu := some [13] },
    { name := "frstors", group := 6, suffix := some .s, modifiers := [0x04, 0xDD], cpu := some [13] },
    { name := "fnop", group := 4, modifiers := [0xD9, 0xD0], cpu := some [13] },
    { name := "fwait", group := 2, modifiers := [0x9B], cpu := some [13] },
    { name := "wait", group := 2, modifiers := [0x9B] },
    { name := "fld", group := 52 },
    { name := "fstp", group := 53 },
    { name := "fldt", group := 54, modifiers := [0x05] },
    { name := "fstpt", group := 54, modifiers := [0x07] },
    { name := "fild", group := 55, modifiers := [0x00, 0x02, 0x05] },
    { name := "fistp", group := 55, modifiers := [0x03, 0x02, 0x07] },
    { name := "fbld", group := 56, modifiers := [0x04] },
    { name := "fildll", group := 56, modifiers := [0x05], gasOnly := true },
    { name := "fbstp", group := 56, modifiers := [0x06] },
    { name := "fistpll", group := 56, modifiers := [0x07], gasOnly := true },
    { name := "fst", group := 57 },
    { name := "fxch", group := 58 },
    { name := "fcom", group := 59, modifiers := [0xD0, 0x02] },
    { name := "fcomp", group := 59, modifiers := [0xD8, 0x03] },
    { name := "fucom", group := 60, modifiers := [0xDD, 0xE0] },
    { name := "fucomp", group := 60, modifiers := [0xDD, 0xE8] },
    { name := "fadd", group := 61, modifiers := [0xC0, 0xC0, 0x00] },
    { name := "fsub", group := 61, modifiers := [0xE8, 0xE0, 0x04] },
    { name := "fsubr", group := 61, modifiers := [0xE0, 0xE8, 0x05] },
    { name := "fmul", group := 61, modifiers := [0xC8, 0xC8, 0x01] },
    { name := "fdiv", group := 61, modifiers := [0xF8, 0xF0, 0x06] },
    { name := "fdivr", group := 61, modifiers := [0xF0, 0xF8, 0x07] },
    { name := "faddp", group := 62, modifiers := [0xC0] },
    { name := "fsubp", group := 62, modifiers := [0xE8], nasmOnly := true },
    { name := "fsubp", group := 62, modifiers := [0xE0], gasOnly := true },
    { name := "fsubrp", group := 62, modifiers := [0xE0], nasmOnly := true },
    { name := "fsubrp", group := 62, modifiers := [0xE8], gasOnly := true },
    { name := "fmulp", group := 62, modifiers := [0xC8] },
    { name := "fdivp", group := 62, modifiers := [0xF8], nasmOnly := true },
    { name := "fdivp", group := 62, modifiers := [0xF0], gasOnly := true },
    { name := "fdivrp", group := 62, modifiers := [0xF0], nasmOnly := true },
    { name := "fdivrp", group := 62, modifiers := [0xF8], gasOnly := true },
    { name := "fist", group := 63, modifiers := [0x02, 0xDB] },
    { name := "ficom", group := 63, modifiers := [0x02, 0xDA] },
    { name := "ficomp", group := 63, modifiers := [0x03, 0xDA] },
    { name := "fiadd", group := 63, modifiers := [0x00, 0xDA] },
    { name := "fisub", group := 63, modifiers := [0x04, 0xDA] },
    { name := "fisubr", group := 63, modifiers := [0x05, 0xDA] },
    { name := "fimul", group := 63, modifiers := [0x01, 0xDA] },
    { name := "fidiv", group := 63, modifiers := [0x06, 0xDA] },
    { name := "fidivr", group := 63, modifiers := [0x07, 0xDA] },
    { name := "fldcw", group := 64, modifiers := [0x05] },
    { name := "fnstcw", group := 64, modifiers := [0x07] },
    { name := "fstcw", group := 65 },
    { name := "fnstsw", group := 66 },
    { name := "fstsw", group := 67 },
    { name := "ffree", group := 68, modifiers := [0xDD] },
    { name := "ffreep", group := 68, modifiers := [0xDF], cpu := some [6, 13, 23] },
    { name := "bswap", group := 69 },
    { name := "xadd", group := 70, modifiers := [0xC0] },
    { name := "cmpxchg", group := 70, modifiers := [0xB0] },
    { name := "cmpxchg486", group := 70, modifiers := [0xA6], nasmOnly := true, cpu := some [4, 23] },
    { name := "invd", group := 4, modifiers := [0x0F, 0x08], cpu := some [4, 25] },
    { name := "wbinvd", group := 4, modifiers := [0x0F, 0x09], cpu := some [4, 25] },
    { name := "invlpg", group := 7, modifiers := [0x07, 0x0F, 0x01], cpu := some [4, 25] },
    { name := "cpuid", group := 4, modifiers := [0x0F, 0xA2], cpu := some [4] } ]

end Verif.Match
