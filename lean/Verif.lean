import Verif.Model.Basic
import Verif.Model.Config
import Verif.Model.Prim
import Verif.Model.CDecl
import Verif.Spec.CDecl
import Verif.Lemmas.CDecl
import Verif.Lemmas.CDeclMeaning
import Verif.Props.Decl
import Verif.Model.Text
import Verif.Model.Cfg
import Verif.Spec.Cfg
import Verif.Lemmas.Text
import Verif.Lemmas.Cfg
import Verif.Props.Cfg
import Verif.Model.Parser
import Verif.Model.Names
import Verif.Spec.Names
import Verif.Lemmas.Names
import Verif.Props.Names
import Verif.Spec.Parser
import Verif.Lemmas.Parser
import Verif.Lemmas.Crates
import Verif.Lemmas.ParserFns
import Verif.Props.Parser
import Verif.Model.Ir
import Verif.Model.ItemMap
import Verif.Model.TyOps
import Verif.Model.LibConfig
import Verif.Model.ItemOps
import Verif.Model.Library
import Verif.Spec.Library
import Verif.Lemmas.ItemMap
import Verif.Lemmas.Dfs
import Verif.Lemmas.Sort
import Verif.Lemmas.Deps
import Verif.Lemmas.Library
import Verif.Props.ItemMap
import Verif.Props.Library
import Verif.Spec.Subst
import Verif.Lemmas.Subst
import Verif.Props.Generics
import Verif.Props.Transfer
import Verif.Props.Kept
import Verif.Spec.Refs
import Verif.Lemmas.Mono
import Verif.Lemmas.Every
import Verif.Lemmas.Plain
import Verif.Lemmas.Refs
import Verif.Props.Refs
import Verif.Props.Keywords
import Verif.Props.RefCases
import Verif.Spec.Mono
import Verif.Lemmas.MonoTable
import Verif.Lemmas.Shape
import Verif.Lemmas.MonoOnce
import Verif.Lemmas.MonoFinite
import Verif.Props.Monomorphs
import Verif.Props.Termination
import Verif.Props.MonoCases
import Verif.Spec.Mangle
import Verif.Lemmas.Mangle
import Verif.Props.Mangle
import Verif.Model.Syn
import Verif.Model.Load
import Verif.Model.LoadItems
import Verif.Model.Front
import Verif.Spec.Prim
import Verif.Spec.Repr
import Verif.Spec.Docs
import Verif.Spec.IntLit
import Verif.Props.Prim
import Verif.Props.Repr
import Verif.Props.Docs
import Verif.Props.Annotations
import Verif.Props.IntLit
import Verif.Model.Output
import Verif.Spec.Output
import Verif.Props.Output
import Verif.Lemmas.Fields
import Verif.Model.Writer
import Verif.Spec.Writer
import Verif.Lemmas.Writer
import Verif.Props.Writer
import Verif.Model.OutConfig
import Verif.Model.Emit
import Verif.Model.EmitEnum
import Verif.Model.Emission
import Verif.Props.Layout
import Verif.Props.HeaderCases
import Verif.Spec.Constants
import Verif.Props.Constants
import Verif.Spec.StructLit
import Verif.Props.StructLit
import Verif.Spec.Comments
import Verif.Spec.Expr
import Verif.Props.Comments
import Verif.Props.Expr
import Verif.Spec.Preproc
import Verif.Spec.Words
import Verif.Lemmas.Preproc
import Verif.Lemmas.PreprocOps
import Verif.Lemmas.PreprocDecl
import Verif.Lemmas.PreprocItems
import Verif.Lemmas.PreprocEnum
import Verif.Props.Preproc
import Verif.Props.Nesting
import Verif.Spec.Abi
import Verif.Props.Abi
import Verif.Spec.Determinism
import Verif.Props.Determinism
import Verif.Spec.Lexer
import Verif.Lemmas.Lexer
import Verif.Lemmas.LexDecl
import Verif.Props.DeclText
import Verif.Spec.Header
import Verif.Lemmas.HeadRun
import Verif.Lemmas.HeadDecl
import Verif.Lemmas.HeadCond
import Verif.Spec.HeaderItems
import Verif.Lemmas.HeadItems
import Verif.Lemmas.HeadConst
import Verif.Lemmas.HeadTemplate
import Verif.Lemmas.HeadTypes
import Verif.Props.ReadItems
import Verif.Props.ReadTexts
import Verif.Spec.HeaderAll
import Verif.Lemmas.HeadEnum
import Verif.Lemmas.HeadAll
import Verif.Props.ReadHeader
import Verif.Props.ReadCases
import Verif.Props.ReadCxx
import Verif.Props.ReadCxxCases
import Verif.Props.SourceCxx
import Verif.Props.SourceCxxCases
import Verif.Props.SourceCxxDefs
import Verif.Props.SourceCxxDefCases
import Verif.Props.SourceCxxEnums
import Verif.Props.SourceCxxEnumCases
import Verif.Props.SourceCxxConsts
import Verif.Props.SourceCxxConstCases
import Verif.Props.ConfigFile
import Verif.Props.OnlyTypes
import Verif.Spec.OnlyConsts
import Verif.Lemmas.OnlyConsts
import Verif.Props.OnlyConsts
import Verif.Props.OnlyConstsCxx
import Verif.Props.OnlyConstCases
import Verif.Spec.OnlyEnumerators
import Verif.Lemmas.OnlyEnumerators
import Verif.Props.OnlyEnumerators
import Verif.Props.OnlyEnumeratorCases
import Verif.Props.Runs
import Verif.Props.Builder
import Verif.Props.BuilderRuns
import Verif.Props.BuilderCases
import Verif.Props.RunCases
import Verif.Spec.Scope
import Verif.Lemmas.Scope
import Verif.Lemmas.ScopeItems
import Verif.Props.Scope
import Verif.Props.ScopeCases
import Verif.Spec.Source
import Verif.Lemmas.Front
import Verif.Spec.SourceTypes
import Verif.Lemmas.SourceTypes
import Verif.Lemmas.SourceRuns
import Verif.Props.Source
import Verif.Props.SourceCases
import Verif.Lemmas.SourceTables
import Verif.Lemmas.SourceItems
import Verif.Spec.SourceDefs
import Verif.Lemmas.SourceUses
import Verif.Lemmas.SourceStatics
import Verif.Lemmas.SourceFields
import Verif.Lemmas.SourceEnums
import Verif.Lemmas.SourceConsts
import Verif.Lemmas.SourceDefs
import Verif.Props.SourceDefs
import Verif.Props.SourceDefCases
import Verif.Props.SourceStatics
import Verif.Props.SourceStaticCases
import Verif.Props.SourceEnums
import Verif.Props.SourceConsts
import Verif.Props.SourceEnumCases
import Verif.Props.SourceConstCases
import Verif.Model.Cargo
import Verif.Spec.Cargo
import Verif.Lemmas.Cargo
import Verif.Props.Cargo
import Verif.Model.Main
import Verif.Spec.Main
import Verif.Props.Main
import Verif.Lemmas.Loaded
import Verif.Props.Loaded
import Verif.Spec.SourceGenerics
import Verif.Lemmas.SourceGenerics
import Verif.Lemmas.SourceGenericFns
import Verif.Lemmas.SourceInst
import Verif.Lemmas.SourceInstances
import Verif.Props.SourceInstances
import Verif.Props.SourceInstanceCases
import Verif.Props.SourceGenerics
import Verif.Props.SourceGenericCases
import Verif.Spec.CxxMembers
import Verif.Lemmas.CxxMembers
import Verif.Lemmas.CxxEnums
import Verif.Props.CxxMembers
import Verif.Props.CxxEnums
import Verif.Props.CxxOnly
import Verif.Props.CxxCases
import Verif.Spec.Rules
import Verif.Props.Rules
