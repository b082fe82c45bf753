import Verif.Model.Cli.Built
import Verif.Spec.Required
import Verif.Props.CliTemplates

/-!
# What a plugin's sources declare and what the compiler makes of them (C78)
-/

namespace Hotswap.Cli

/-- The functions the author of a plugin writes. The two others come from the generated main file. -/
def authorFuncs : List Str :=
  ["OnLoad".toList, "OnInit".toList, "OnFree".toList, "Export".toList, "Import".toList, "InvokeFunc".toList, "Reloadable".toList]

/-- The file declares a function (not a method) of this name. -/
def SrcFile.Declares (f : SrcFile) (s : Str) : Prop := Decl.func s false ∈ f.decls

/-- The file is a Go source file, and not a test. -/
def SrcFile.Source (f : SrcFile) : Prop := ".go".toList <:+ f.name ∧ ¬ "_test.go".toList <:+ f.name

/-- The file has a name hotswap reserves for what it generates. -/
def SrcFile.Reserved (f : SrcFile) : Prop := f.name = "hotswap.bureau.go".toList ∨ f.name = "hotswap.main.go".toList ∨ f.name = "hotswap.live.go".toList

/-- The Go compiler compiles the file. -/
def SrcFile.Compiled (f : SrcFile) : Prop := ¬ GoIgnores f.name ∧ f.admitted = true

/-- If the file is compiled into a plugin, the plugin has a symbol `s` because of it: an ordinary function or a variable. -/
def SrcFile.Offers (f : SrcFile) (s : Str) : Prop := (f.Declares s ∧ s ∉ f.generic) ∨ s ∈ f.vars

/-- An exported name (ASCII is enough for the functions hotswap looks for). -/
def Exported (s : Str) : Prop := ∃ c, s.head? = some c ∧ c.isUpper = true

/-- The assumption about the Go toolchain: `syms` are the symbols of the plugin that `go build -buildmode=plugin` makes of the files in a directory. An exported name is a symbol if
and only if a compiled file offers it. -/
def ImageOf (files : List SrcFile) (syms : Str → Option GoType) : Prop :=
  ∀ s, Exported s → ((syms s).isSome = true ↔ ∃ f ∈ files, f.Compiled ∧ f.Offers s)

/-- The plugin file with these symbols was built by `hotswap build` from a directory with these files. -/
def BuiltFromFiles (files : List SrcFile) (syms : Str → Option GoType) : Prop :=
  ∃ inc exc live, ImageOf (tmpFiles inc exc files live) syms

end Hotswap.Cli
