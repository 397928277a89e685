import Verif.CInt
import Verif.Util
import Verif.Alloc.Model
import Verif.Alloc.Spec
import Verif.Alloc.Lemmas
import Verif.Alloc.Props
import Verif.Assign.Model
import Verif.Assign.Spec
import Verif.Assign.Lemmas
import Verif.Assign.Props
import Verif.Assign.Fail
import Verif.Bytes
import Verif.Library.Model
import Verif.Library.Spec
import Verif.Library.Lemmas
import Verif.Library.Props
import Verif.Parser
import Verif.Object.Model
import Verif.Object.Spec
import Verif.Object.Lemmas
import Verif.Object.Props
import Verif.Expr.Ops
import Verif.Expr.OpsLemmas
import Verif.Expr.Tree
import Verif.Expr.Link
import Verif.Expr.LinkLemmas
import Verif.Expr.LinkSpec
import Verif.Expr.LinkEval
import Verif.Expr.LinkProps
import Verif.Expr.Asm
import Verif.Expr.AsmSpec
import Verif.Expr.AsmLemmas
import Verif.Expr.AsmBuild
import Verif.Expr.AsmOptimize
import Verif.Expr.AsmReduce
import Verif.Expr.AsmWrite
import Verif.Expr.AsmTotal
import Verif.Expr.AsmProps
import Verif.Expr.AsmLink
import Verif.Patch.Model
import Verif.Patch.Spec
import Verif.Patch.Lemmas
import Verif.Patch.Props
import Verif.Smart.Model
import Verif.Smart.Spec
import Verif.Smart.Lemmas
import Verif.Smart.Props
import Verif.Resolve.Model
import Verif.Resolve.Spec
import Verif.Resolve.Lemmas
import Verif.Resolve.Props
import Verif.Sort.Model
import Verif.Sort.Props
import Verif.Image.Model
import Verif.Image.Props
import Verif.Image.Checksum
import Verif.Image.ChecksumLemmas
import Verif.Image.GameBoyProps
import Verif.Image.SegaProps
import Verif.Container.Model
import Verif.Container.Spec
import Verif.Container.Props
import Verif.Container.Amiga
import Verif.Container.AmigaProps
import Verif.Container.Hc800
import Verif.Container.Hc800Props
import Verif.Container.Prg
import Verif.Container.PrgSpec
import Verif.Container.PrgProps
import Verif.Container.KupProps
import Verif.Config.Model
import Verif.Config.Props
import Verif.Config.Tables
import Verif.Config.Options
import Verif.Config.OptionsProps
import Verif.Config.Limits
import Verif.Config.Commodore
import Verif.Config.Documented
import Verif.Layout.Model
import Verif.Layout.Spec
import Verif.Layout.Tokens
import Verif.Layout.Parse
import Verif.Layout.Value
import Verif.Layout.Lines
import Verif.Layout.Props
import Verif.Layout.Limits
import Verif.Section.Model
import Verif.Section.Directive
import Verif.Section.Spec
import Verif.Section.Lemmas
import Verif.Section.Step
import Verif.Section.Refine
import Verif.Section.Items
import Verif.Section.Frame
import Verif.Section.Props
import Verif.Section.Limits
import Verif.Symbol.Model
import Verif.Symbol.Spec
import Verif.Symbol.Lemmas
import Verif.Symbol.Refine
import Verif.Symbol.Step
import Verif.Symbol.Counter
import Verif.Symbol.History
import Verif.Symbol.Props
import Verif.Symbol.Fields
import Verif.Symbol.Limits
import Verif.Text.Model
import Verif.Text.Spec
import Verif.Text.Props
import Verif.Text.Rand
import Verif.Text.Period
import Verif.Text.Format
import Verif.Lexer.Buffer
import Verif.Lexer.Spec
import Verif.Lexer.Stream
import Verif.Lexer.BufferProps
import Verif.Lexer.Number
import Verif.Lexer.NumberSpec
import Verif.Lexer.NumberProps
import Verif.Lexer.Skip
import Verif.Lexer.SkipSpec
import Verif.Lexer.SkipProps
import Verif.Lexer.SkipText
import Verif.Lexer.SkipMain
import Verif.Lexer.SkipMacro
import Verif.Lexer.SkipMacroMain
import Verif.Lexer.SkipLimits
import Verif.BinObj.Model
import Verif.BinObj.Spec
import Verif.BinObj.Props
import Verif.BinObj.Image
import Verif.BinObj.Limits
import Verif.Flow.Model
import Verif.Flow.Spec
import Verif.Flow.Props
import Verif.Flow.Steps
import Verif.Flow.Main
import Verif.Flow.Limits
import Verif.Parse.Model
import Verif.Parse.Spec
import Verif.Parse.Main
import Verif.Parse.Strings
import Verif.Parse.Converse
import Verif.Parse.Props
import Verif.Cpu.Common
import Verif.Cpu.Schip.Model
import Verif.Cpu.Schip.Spec
import Verif.Cpu.Schip.Lemmas
import Verif.Cpu.Schip.Props
import Verif.Cpu.Schip.Refuse
import Verif.Cpu.Dcpu.Model
import Verif.Cpu.Dcpu.Spec
import Verif.Cpu.Dcpu.Lemmas
import Verif.Cpu.Dcpu.Props
import Verif.Cpu.Dcpu.Refuse
import Verif.Cpu.Mips.Model
import Verif.Cpu.Mips.Spec
import Verif.Cpu.Mips.Lemmas
import Verif.Cpu.Mips.Props
import Verif.Cpu.Mips.Refuse
import Verif.Cpu.X65.Model
import Verif.Cpu.X65.Spec
import Verif.Cpu.X65.Lemmas
import Verif.Cpu.X65.Values
import Verif.Cpu.X65.Rows
import Verif.Cpu.X65.Props
import Verif.Cpu.X65.Refuse
import Verif.Cpu.X65.Absent
import Verif.Elf.Model
import Verif.Elf.Spec
import Verif.Elf.Lemmas
import Verif.Elf.Written
import Verif.Elf.Read
import Verif.Elf.Link
import Verif.Elf.Props
import Verif.Ami.Props
import Verif.Ami.Limits
import Verif.Cpu.Z80.Model
import Verif.Cpu.Z80.Spec
import Verif.Cpu.Z80.Table
import Verif.Cpu.Z80.Checked
import Verif.Cpu.Z80.TableA
import Verif.Cpu.Z80.TableB
import Verif.Cpu.Z80.TableC
import Verif.Cpu.Z80.Tables
import Verif.Cpu.Z80.Decode
import Verif.Cpu.Z80.Decoded
import Verif.Cpu.Z80.Lemmas
import Verif.Cpu.Z80.Values
import Verif.Cpu.Z80.Reading
import Verif.Cpu.Z80.Props
import Verif.Cpu.Z80.Limits
import Verif.Lexer.Words
import Verif.Lexer.Scan
import Verif.Lexer.ScanSpec
import Verif.Lexer.WordsProps
import Verif.Lexer.ScanProps
import Verif.Lexer.Tokens
import Verif.Lexer.ScanLimits
import Verif.Lexer.Written
import Verif.Lexer.Parsed
import Verif.Lexer.ParsedLimits
import Verif.Source.Text
import Verif.Source.Check
import Verif.Source.Z80
import Verif.Source.Languages
import Verif.Source.M6809
import Verif.Cpu.M6809.Limits
import Verif.Program.Model
import Verif.Program.Spec
import Verif.Program.Sim
import Verif.Program.Run
import Verif.Program.Link
import Verif.Program.Props
import Verif.Program.Code
import Verif.Program.Text
import Verif.Program.Agree
import Verif.Program.Example
import Verif.Program.Emit
import Verif.Program.Together
import Verif.Program.Whole
import Verif.Program.Pair
import Verif.Program.Confused
import Verif.Cpu.Rc8.Model
import Verif.Cpu.Rc8.Spec
import Verif.Cpu.Rc8.Machine
import Verif.Cpu.Rc8.Made
import Verif.Cpu.Rc8.Reading
import Verif.Cpu.Rc8.Sem
import Verif.Cpu.Rc8.Values
import Verif.Cpu.Rc8.Words
import Verif.Cpu.Rc8.Codes
import Verif.Cpu.Rc8.Lists
import Verif.Cpu.Rc8.Runs
import Verif.Cpu.Rc8.Table
import Verif.Cpu.Rc8.Lines
import Verif.Cpu.Rc8.Props
import Verif.Cpu.Rc8.Limits
import Verif.Options.Model
import Verif.Options.Lemmas
import Verif.Options.Props
import Verif.Options.Limits
import Verif.Options.Plain
import Verif.Options.Z80
import Verif.Options.Others
