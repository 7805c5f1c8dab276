import Verif.Ast.Lemmas
import Verif.Ast.Model
import Verif.Ast.Props
import Verif.Ast.Reads
import Verif.Ast.Sim
import Verif.Ast.Spec
import Verif.Ast.Steps
import Verif.Base
import Verif.Builder.Assign
import Verif.Builder.Lemmas
import Verif.Builder.Model
import Verif.Builder.More
import Verif.Builder.Props
import Verif.Builder.Spec
import Verif.Builder.Trees
import Verif.Builder.Typing
import Verif.Builder.Values
import Verif.Checks.Declare
import Verif.Checks.Format
import Verif.Checks.Grow
import Verif.Checks.Hist
import Verif.Checks.Init
import Verif.Checks.Lemmas
import Verif.Checks.Model
import Verif.Checks.Props
import Verif.Checks.Rest
import Verif.Checks.Spec
import Verif.Codegen.Exps
import Verif.Codegen.Lemmas
import Verif.Codegen.Links
import Verif.Codegen.Model
import Verif.Codegen.Pieces
import Verif.Codegen.Prog
import Verif.Codegen.Props
import Verif.Codegen.Slots
import Verif.Codegen.Spec
import Verif.Codegen.Stmts
import Verif.Codegen.UnitSpec
import Verif.Codegen.Units
import Verif.Codegen.Whole
import Verif.Commenter.Lemmas
import Verif.Commenter.Model
import Verif.Commenter.Props
import Verif.Commenter.Spec
import Verif.Computer.Accept
import Verif.Computer.Lemmas
import Verif.Computer.Model
import Verif.Computer.Props
import Verif.Computer.Spec
import Verif.Cond.Flag
import Verif.Cond.Inv
import Verif.Cond.Lemmas
import Verif.Cond.Model
import Verif.Cond.Props
import Verif.Cond.Run
import Verif.Cond.Silent
import Verif.Cond.Spec
import Verif.Cond.Total
import Verif.Declared.Model
import Verif.Declared.Props
import Verif.Driver.Lemmas
import Verif.Driver.Model
import Verif.Driver.Props
import Verif.Driver.Spec
import Verif.Expr.Complete
import Verif.Expr.Lemmas
import Verif.Expr.Model
import Verif.Expr.Plain
import Verif.Expr.Props
import Verif.Expr.Sound
import Verif.Expr.Spec
import Verif.Flags.Lemmas
import Verif.Flags.Model
import Verif.Flags.Props
import Verif.Flags.Spec
import Verif.Hash.Lemmas
import Verif.Hash.Model
import Verif.Hash.Props
import Verif.Hash.Refine
import Verif.Hash.Spec
import Verif.Hash.Walk
import Verif.Instr.Model
import Verif.Instr.Props
import Verif.Instr.Spec
import Verif.Io.Lemmas
import Verif.Io.Model
import Verif.Io.Props
import Verif.Io.Spec
import Verif.Item.Lemmas
import Verif.Item.Model
import Verif.Item.Props
import Verif.Lexer.Lemmas
import Verif.Lexer.Model
import Verif.Lexer.Props
import Verif.Lexer.Punct
import Verif.Lexer.Spec
import Verif.Lexer.Text
import Verif.Linker.Lemmas
import Verif.Linker.Model
import Verif.Linker.Props
import Verif.Linker.Run
import Verif.Linker.Spec
import Verif.Listing.Exps
import Verif.Listing.Lemmas
import Verif.Listing.Model
import Verif.Listing.Props
import Verif.Listing.Show
import Verif.Listing.Spec
import Verif.Listing.Stmts
import Verif.Listing.Text
import Verif.Llvm.Arith
import Verif.Llvm.Block
import Verif.Llvm.Cond
import Verif.Llvm.Exec
import Verif.Llvm.Exp
import Verif.Llvm.Flow
import Verif.Llvm.Frag
import Verif.Llvm.Interp
import Verif.Llvm.Labels
import Verif.Llvm.Lemmas
import Verif.Llvm.Model
import Verif.Llvm.Props
import Verif.Llvm.Regs
import Verif.Llvm.Run
import Verif.Llvm.Spec
import Verif.Llvm.Stmt
import Verif.Llvm.Targets
import Verif.Llvm.Unit
import Verif.LlvmText.Lemmas
import Verif.LlvmText.Made
import Verif.LlvmText.Model
import Verif.LlvmText.Props
import Verif.LlvmText.Spec
import Verif.LlvmText.Strings
import Verif.LlvmText.Words
import Verif.Locator.Lemmas
import Verif.Locator.Marks
import Verif.Locator.Model
import Verif.Locator.Props
import Verif.Locator.Search
import Verif.Locator.Spec
import Verif.Logger.Lemmas
import Verif.Logger.Model
import Verif.Logger.Print
import Verif.Logger.Props
import Verif.Logger.Spec
import Verif.Machine.Calls
import Verif.Machine.Exps
import Verif.Machine.Exps2
import Verif.Machine.Exps3
import Verif.Machine.Fragment
import Verif.Machine.Held
import Verif.Machine.Lemmas
import Verif.Machine.Loops
import Verif.Machine.Meaning
import Verif.Machine.Model
import Verif.Machine.Props
import Verif.Machine.Scoped
import Verif.Machine.Spec
import Verif.Machine.Stmts
import Verif.Machine.Stmts2
import Verif.Machine.Switch
import Verif.Machine.Unit
import Verif.Machine.Unit2
import Verif.Map.Lemmas
import Verif.Map.Model
import Verif.Map.Props
import Verif.Map.Refine
import Verif.Map.Spec
import Verif.Mips.AllOk
import Verif.Mips.CallOk
import Verif.Mips.ExpOk
import Verif.Mips.Frag
import Verif.Mips.FuncOk
import Verif.Mips.Here
import Verif.Mips.Jumps
import Verif.Mips.Labels
import Verif.Mips.Lay
import Verif.Mips.Lin
import Verif.Mips.LoopOk
import Verif.Mips.Model
import Verif.Mips.Pool
import Verif.Mips.Props
import Verif.Mips.Run
import Verif.Mips.Spec
import Verif.Mips.StmtOk
import Verif.Mips.Temps
import Verif.Mips.UnitOk
import Verif.MipsStrings.Lemmas
import Verif.MipsStrings.Model
import Verif.MipsStrings.Props
import Verif.MipsStrings.Spec
import Verif.MipsText.Fits
import Verif.MipsText.Model
import Verif.MipsText.Props
import Verif.MipsText.Runs
import Verif.MipsText.Spec
import Verif.MipsText.Words
import Verif.Names.Lemmas
import Verif.Names.Model
import Verif.Names.Props
import Verif.Names.Spec
import Verif.Outline.Ends
import Verif.Outline.Lemmas
import Verif.Outline.Model
import Verif.Outline.Props
import Verif.Outline.Reads
import Verif.Outline.Spec
import Verif.Pairs.Model
import Verif.Pairs.Props
import Verif.Pairs.Spec
import Verif.Push.Model
import Verif.Push.Props
import Verif.Scope.Defined
import Verif.Scope.Inv
import Verif.Scope.Lemmas
import Verif.Scope.Model
import Verif.Scope.Props
import Verif.Scope.Spec
import Verif.Skip.Model
import Verif.Skip.Props
import Verif.Skip.Spec
import Verif.Spelling.Lemmas
import Verif.Spelling.Model
import Verif.Spelling.Props
import Verif.Spelling.Reads
import Verif.Spelling.Spec
import Verif.Stmt.Complete
import Verif.Stmt.Ends
import Verif.Stmt.Model
import Verif.Stmt.Props
import Verif.Stmt.Sound
import Verif.Stmt.Spec
import Verif.Storage.Lemmas
import Verif.Storage.Model
import Verif.Storage.Parts
import Verif.Storage.Props
import Verif.Storage.Refine
import Verif.Storage.Spec
import Verif.Storage.Witness
import Verif.Streams.Held
import Verif.Streams.Lemmas
import Verif.Streams.Model
import Verif.Streams.Props
import Verif.Streams.Spec
import Verif.Strings.Lemmas
import Verif.Strings.Model
import Verif.Strings.Props
import Verif.Strings.Refine
import Verif.Strings.Spec
import Verif.Subst.Calls
import Verif.Subst.Defs
import Verif.Subst.Lemmas
import Verif.Subst.Main
import Verif.Subst.Model
import Verif.Subst.Observe
import Verif.Subst.Props
import Verif.Subst.Spec
import Verif.Subst.Wrong
import Verif.Suffix.Model
import Verif.Suffix.Props
import Verif.Suffix.Spec
import Verif.Tables.Lemmas
import Verif.Tables.Model
import Verif.Tables.Props
import Verif.Tables.Spec
import Verif.Text.Block
import Verif.Text.Events
import Verif.Text.Found
import Verif.Text.Lemmas
import Verif.Text.Lines
import Verif.Text.Main
import Verif.Text.Model
import Verif.Text.Places
import Verif.Text.Props
import Verif.Text.Spec
import Verif.Text.Trace
import Verif.Text.Where
import Verif.Tree.Edit
import Verif.Tree.Forest
import Verif.Tree.Lemmas
import Verif.Tree.Model
import Verif.Tree.Preorder
import Verif.Tree.Props
import Verif.Tree.Spec
import Verif.Tree.Steps
import Verif.Tree.Walk
import Verif.Types.Inv
import Verif.Types.Lemmas
import Verif.Types.Model
import Verif.Types.Props
import Verif.Types.Read
import Verif.Types.Spec
import Verif.Utf8.Lemmas
import Verif.Utf8.Model
import Verif.Utf8.Props
import Verif.Utf8.Spec
import Verif.Vector.Lemmas
import Verif.Vector.Model
import Verif.Vector.Props
import Verif.Vector.Spec
import Verif.Wide.Model
import Verif.Wide.Props
import Verif.Workspace.Denote
import Verif.Workspace.Lemmas
import Verif.Workspace.Model
import Verif.Workspace.Path
import Verif.Workspace.Props
import Verif.Workspace.Spec
