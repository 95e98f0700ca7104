import Verif.Go.Basic
import Verif.Go.Dec
import Verif.Go.Enc
import Verif.Go.Binary
import Verif.Lemmas.Run
import Verif.Model.Prim
import Verif.Spec.Codec
import Verif.Lemmas.Prim
import Verif.Lemmas.Byte
import Verif.Lemmas.Strict
import Verif.Lemmas.PrimStrict
import Verif.Props.Prim
import Verif.Lemmas.Faults
import Verif.Props.Stream
import Verif.Lemmas.Name
import Verif.Props.Name
import Verif.Spec.JsonFail
import Verif.Lemmas.JsonFail
import Verif.Lemmas.Base64Part
import Verif.Props.JsonFail
import Verif.Audit
import Verif.Model.Symbol
import Verif.Lemmas.Strconv
import Verif.Lemmas.Codec
import Verif.Lemmas.Symbol
import Verif.Props.Symbol
import Verif.Lemmas.Numbers
import Verif.Props.Numbers
import Verif.Lemmas.Encoding
import Verif.Props.Blob
import Verif.Lemmas.Text
import Verif.Props.Text
import Verif.Lemmas.Ripemd
import Verif.Props.Ripemd
import Verif.Lemmas.Base58
import Verif.Props.Base58
import Verif.Lemmas.Keys
import Verif.Props.Keys
import Verif.Lemmas.Overwrite
import Verif.Lemmas.Tx
import Verif.Lemmas.TxStrict
import Verif.Props.Overwrite
import Verif.Props.Tx
import Verif.Props.ChainStream
import Verif.Model.Reflect
import Verif.Spec.Reflect
import Verif.Lemmas.ReflectBasic
import Verif.Lemmas.Reflect
import Verif.Props.Reflect
import Verif.Model.Bench
import Verif.Lemmas.Bench
import Verif.Props.Bench
import Verif.Props.Fields
import Verif.Props.VariantEnc
import Verif.Props.Custom
import Verif.Model.Abi
import Verif.Spec.Abi
import Verif.Lemmas.AbiResolve
import Verif.Props.AbiResolve
import Verif.Lemmas.AbiFields
import Verif.Spec.AbiWire
import Verif.Lemmas.AbiWire
import Verif.Lemmas.AbiBuiltin
import Verif.Lemmas.AbiExact
import Verif.Props.AbiCodec
import Verif.Lemmas.Safe
import Verif.Spec.AbiTerm
import Verif.Lemmas.AbiTerm
import Verif.Props.AbiTerm
import Verif.Spec.Stream
import Verif.Lemmas.ReflectStrict
import Verif.Lemmas.AbiStrict
import Verif.Props.ReflectStream
import Verif.Props.AbiExt
import Verif.Spec.Panics
import Verif.Lemmas.Calm
import Verif.Lemmas.AbiCalm
import Verif.Props.Panics
import Verif.Model.AbiReflect
import Verif.Spec.AbiBinary
import Verif.Lemmas.AbiBinary
import Verif.Props.AbiBinary
import Verif.Go.Time
import Verif.Model.TimeText
import Verif.Spec.Time
import Verif.Lemmas.Calendar
import Verif.Lemmas.TimeText
import Verif.Lemmas.TimeUnix
import Verif.Props.Time
import Verif.Model.Codegen
import Verif.Spec.Codegen
import Verif.Lemmas.Codegen
import Verif.Lemmas.CodegenRead
import Verif.Lemmas.CodegenCompile
import Verif.Props.Codegen
import Verif.Spec.CodegenExact
import Verif.Lemmas.CodegenExact
import Verif.Props.CodegenExact
import Verif.Model.Template
import Verif.Model.CodegenText
import Verif.Spec.GoSource
import Verif.Lemmas.CodegenText
import Verif.Lemmas.GoTokens
import Verif.Lemmas.GoText
import Verif.Props.CodegenText
import Verif.Spec.WellTyped
import Verif.Lemmas.WellTyped
import Verif.Lemmas.WellTypedCode
import Verif.Props.WellTyped
import Verif.Spec.ReflectOverwrite
import Verif.Lemmas.ReflectOverwrite
import Verif.Props.ReflectOverwrite
import Verif.Model.Recursive
import Verif.Spec.Recursive
import Verif.Lemmas.Recursive
import Verif.Lemmas.RecursiveTy
import Verif.Lemmas.RecursiveSim
import Verif.Lemmas.RecursiveTerm
import Verif.Lemmas.RecursiveEnc
import Verif.Lemmas.RecursiveRound
import Verif.Props.Recursive
import Verif.Go.Json
import Verif.Spec.Json
import Verif.Lemmas.JsonStr
import Verif.Lemmas.JsonText
import Verif.Model.Json
import Verif.Model.JsonChain
import Verif.Spec.JsonTypes
import Verif.Lemmas.JsonLeaf
import Verif.Lemmas.JsonTypes
import Verif.Lemmas.JsonMembers
import Verif.Props.Json
import Verif.Props.JsonAbi
import Verif.Lemmas.JsonDoc
import Verif.Props.JsonDoc
import Verif.Spec.JsonRead
import Verif.Lemmas.JsonRead
import Verif.Props.JsonRead
import Verif.Go.Float
import Verif.Spec.Float
import Verif.Lemmas.FloatRound
import Verif.Lemmas.FloatText
import Verif.Lemmas.FloatPrint
import Verif.Lemmas.FloatNearest
import Verif.Lemmas.FloatDoc
import Verif.Lemmas.FloatNumber
import Verif.Model.Float
import Verif.Lemmas.FloatValue
import Verif.Props.Float
import Verif.Model.ActionDecode
import Verif.Props.ActionDecode
import Verif.Props.JsonAbiDoc
import Verif.Spec.JsonOf
import Verif.Props.JsonOf
import Verif.Vectors.Abi
import Verif.Vectors.Chain
import Verif.Spec.JsonSyntax
import Verif.Spec.JsonRepair
import Verif.Lemmas.JsonSyntax
import Verif.Lemmas.JsonRepair
import Verif.Props.JsonSyntax
import Verif.Model.AbiJson
import Verif.Spec.AbiJson
import Verif.Lemmas.AbiJsonDecode
import Verif.Lemmas.AbiJson
import Verif.Lemmas.AbiJsonBack
import Verif.Lemmas.AbiJsonRead
import Verif.Props.AbiJson
import Verif.Spec.Layout
import Verif.Lemmas.Layout
import Verif.Props.Make
import Verif.Props.AbiFields
import Verif.Model.Sha2
import Verif.Spec.Sha2
import Verif.Lemmas.Sha2
import Verif.Props.Sha2
import Verif.Spec.Takes
import Verif.Lemmas.Takes
import Verif.Lemmas.TakesChain
import Verif.Lemmas.TakesReflect
import Verif.Props.Takes
import Verif.Spec.AbiTakes
import Verif.Lemmas.AbiTakes
import Verif.Props.AbiTakes
import Verif.Spec.Observed
import Verif.Props.Observed
import Verif.Model.Args
import Verif.Props.Args
import Verif.Model.Embed
import Verif.Props.Embed
import Verif.Spec.Fault
import Verif.Lemmas.Fault
import Verif.Lemmas.Canon
import Verif.Spec.AbiSends
import Verif.Props.Fault
import Verif.Props.Canon
import Verif.Spec.AbiCanon
import Verif.Lemmas.AbiCanon
import Verif.Props.AbiCanon
import Verif.Spec.AbiEnds
import Verif.Lemmas.Cuts
import Verif.Lemmas.AbiEnds
import Verif.Props.AbiEnds
import Verif.Spec.AbiBreaks
import Verif.Lemmas.AbiBreaks
import Verif.Props.AbiBreaks
import Verif.Spec.ReflectEnds
import Verif.Lemmas.Dry
import Verif.Lemmas.ReflectEnds
import Verif.Props.ReflectEnds
import Verif.Spec.Fails
import Verif.Lemmas.Fails
import Verif.Lemmas.FailsChain
import Verif.Lemmas.FailsAll
import Verif.Lemmas.FailsKnown
import Verif.Props.Fails
import Verif.Spec.AbiFails
import Verif.Lemmas.AbiFails
import Verif.Props.AbiFails
import Verif.Spec.Sizes
import Verif.Lemmas.Sizes
import Verif.Props.Sizes
import Verif.Spec.WireSize
import Verif.Props.WireSize
import Verif.Spec.Twin
import Verif.Lemmas.Twin
import Verif.Props.Twin
import Verif.Spec.TwinVariant
import Verif.Lemmas.TwinVariant
import Verif.Props.TwinVariant
import Verif.Spec.Kin
import Verif.Lemmas.Kin
import Verif.Props.Kin
import Verif.Lemmas.TwinFails
import Verif.Props.TwinFails
import Verif.Spec.Leaves
import Verif.Lemmas.Leaves
import Verif.Props.Leaves
import Verif.Model.Memory
import Verif.Spec.Memory
import Verif.Lemmas.Memory
import Verif.Props.Memory
import Verif.Props.Full
import Verif.Props.Log
import Verif.Spec.AbiGrow
import Verif.Lemmas.AbiGrow
import Verif.Props.AbiGrow
import Verif.Spec.AbiExtend
import Verif.Lemmas.AbiExtend
import Verif.Spec.AbiLog
import Verif.Lemmas.AbiLog
import Verif.Props.AbiLog
import Verif.Spec.Evolve
import Verif.Lemmas.Evolve
import Verif.Props.Evolve
import Verif.Lemmas.TimeOrder
import Verif.Props.TimeOrder
import Verif.Lemmas.TextLength
import Verif.Props.TextLength
import Verif.Model.Graph
import Verif.Spec.Graph
import Verif.Lemmas.Graph
import Verif.Lemmas.GraphCalm
import Verif.Props.Graph
import Verif.Props.AbiExtend
import Verif.Model.MemoryEncode
import Verif.Lemmas.MemoryEncode
import Verif.Props.MemoryEncode
import Verif.Model.Methods
import Verif.Spec.Methods
import Verif.Lemmas.Methods
import Verif.Props.Methods
import Verif.Spec.MethodErrors
import Verif.Lemmas.MethodErrors
import Verif.Props.MethodErrors
import Verif.Model.MethodVariants
import Verif.Spec.MethodVariants
import Verif.Lemmas.MethodVariants
import Verif.Props.MethodVariants
import Verif.Spec.MethodTakes
import Verif.Lemmas.MethodTakes
import Verif.Props.MethodTakes
import Verif.Spec.MethodFault
import Verif.Lemmas.MethodFault
import Verif.Props.MethodFault
import Verif.Spec.MethodCanon
import Verif.Lemmas.MethodCanon
import Verif.Props.MethodCanon
import Verif.Spec.EmbedTakes
import Verif.Props.EmbedTakes
