import Verif.Linemap.Props
import Verif.Errwarn.Props
import Verif.Hamt.Props
import Verif.Intnum.Props
import Verif.Literal.Props
import Verif.Expr.Props
import Verif.Sort.Props
import Verif.Inttree.Props
import Verif.Symtab.Props
import Verif.Bytecode.Props
import Verif.Optimize.Props
import Verif.Assoc.Props
import Verif.Section.Props
import Verif.Directive.Props
import Verif.File.Props
import Verif.Md5.Props
import Verif.Floatnum.Props
import Verif.Value.Props
import Verif.Ea.Props
import Verif.Insn.Props
import Verif.Dwarf.FilesProps
import Verif.Bin.Props
import Verif.Parse.Props
import Verif.Elf.Props
import Verif.Words.Props
import Verif.Match.Props
import Verif.Match.OperandProps
import Verif.Match.MovProps
import Verif.Match.TableProps
import Verif.Match.NameProps
import Verif.Cpu.Props
import Verif.Match.StartProps
import Verif.Coff.Props
import Verif.Pp.Props
import Verif.Pp.Args
import Verif.Pp.LexProps
import Verif.Pp.SmacProps
import Verif.Unwind.Props
import Verif.Macho.Props
import Verif.Listing.Props
import Verif.Nasm.Props
import Verif.Lc3b.Props
import Verif.Xdf.Props
import Verif.Rdf.Props
import Verif.Stabs.Props
import Verif.Cmdline.Props
import Verif.Lines.Props
import Verif.Gas.Props
import Verif.Comment.Props
import Verif.Param.Props
import Verif.Param.SubstProps
import Verif.Cpp.Props
import Verif.Cpp.RuleProps
import Verif.Cstr.Props
import Verif.Outname.Props
import Verif.Warnopt.Props
import Verif.File.IncludeProps
import Verif.Mkpath.Props
