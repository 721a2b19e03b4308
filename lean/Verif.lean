import Verif.Props.Primitives
import Verif.Props.Text
import Verif.Props.Arrays
import Verif.Props.Keys
import Verif.Props.Collections
import Verif.Props.Config
import Verif.Props.Log
import Verif.Props.Buffers
import Verif.Props.Decode
import Verif.Props.RoundTrip
import Verif.Props.EncodeGlobal
import Verif.Props.EncodeSize
import Verif.Props.EncodeWire
import Verif.Props.ErrorLayout
import Verif.Props.NodeHost
import Verif.Props.RecursiveEq
import Verif.Props.SameForm
import Verif.Props.Decoded
import Verif.Props.Accept
import Verif.Props.ReEncode
import Verif.Props.RegExp
import Verif.Props.PrimObject
import Verif.Props.SetAlgebra
import Verif.Props.Traceback
import Verif.Props.ObjectMixins
import Verif.Props.DateTime
import Verif.Props.FloatConv
import Verif.Props.PlainEq
import Verif.Props.TypedArray
import Verif.Props.DecodeOptions
import Verif.Props.ReprSettings
import Verif.Props.Repr
import Verif.Props.TagReaders
import Verif.Props.Memory
import Verif.Props.ArrayMixins
import Verif.Props.Dispatch
import Verif.Model.Versions
import Verif.Spec.Versions
import Verif.Proofs.VersionOrder
import Verif.Proofs.Versions
import Verif.Proofs.VersionGreedy
import Verif.Proofs.VersionTexts
import Verif.Props.Versions
import Verif.Model.EqThreads
import Verif.Proofs.EqThreads
import Verif.Props.EqThreads
import Verif.Model.ErrorObjects
import Verif.Props.ErrorObjects
import Verif.Model.Caches
import Verif.Props.Caches
import Verif.Spec.NumberText
import Verif.Model.FloatText
import Verif.Proofs.FloatText
import Verif.Proofs.FloatTextInt
import Verif.Proofs.FloatTextRead
import Verif.Props.FloatText
import Verif.Model.DecodePos
import Verif.Proofs.DecodePosRd
import Verif.Proofs.DecodePos
import Verif.Props.Positions
import Verif.Model.LocalTime
import Verif.Spec.Clock
import Verif.Proofs.LocalTime
import Verif.Proofs.LocalFloat
import Verif.Props.LocalTime
import Verif.Spec.Language
import Verif.Proofs.Language
import Verif.Proofs.LanguageObj
import Verif.Proofs.LanguageBuf
import Verif.Proofs.LanguageLoops
import Verif.Proofs.LanguageProps
import Verif.Proofs.LanguageError
import Verif.Proofs.LanguageMain
import Verif.Props.Language
import Verif.Model.Nesting
import Verif.Spec.Nesting
import Verif.Proofs.Nesting
import Verif.Proofs.NestingEncode
import Verif.Props.Nesting
import Verif.Model.Views
import Verif.Spec.Views
import Verif.Proofs.Views
import Verif.Props.Views
import Verif.Props.Steps
import Verif.Model.DecodeFail
import Verif.Proofs.DecodeFail
import Verif.Proofs.DecodeFailBounds
import Verif.Props.DecodeFail
import Verif.Model.InPlace
import Verif.Proofs.InPlace
import Verif.Props.InPlace
import Verif.Model.ObjViews
import Verif.Spec.ObjViews
import Verif.Proofs.ObjViews
import Verif.Props.ObjViews
import Verif.Model.Errors
import Verif.Spec.Errors
import Verif.Proofs.Errors
import Verif.Props.Errors
import Verif.Model.Copies
import Verif.Spec.Copies
import Verif.Proofs.Copies
import Verif.Props.Copies
import Verif.Model.BufferRepr
import Verif.Spec.BufferRepr
import Verif.Proofs.BufferRepr
import Verif.Props.BufferRepr
import Verif.Model.ValueObjects
import Verif.Spec.ValueObjects
import Verif.Proofs.ValueObjects
import Verif.Props.ValueObjects
import Verif.Model.MapArgs
import Verif.Spec.MapArgs
import Verif.Props.MapArgs
import Verif.Model.Iteration
import Verif.Spec.Iteration
import Verif.Proofs.Iteration
import Verif.Props.Iteration
import Verif.Model.ReprGuard
import Verif.Spec.ReprGuard
import Verif.Proofs.ReprGuard
import Verif.Props.ReprGuard
import Verif.Model.ErrorTexts
import Verif.Spec.ErrorTexts
import Verif.Proofs.ErrorTexts
import Verif.Props.ErrorTexts
import Verif.Model.WriteFail
import Verif.Spec.WriteFail
import Verif.Proofs.WriteFail
import Verif.Props.WriteFail
import Verif.Model.MapLoop
import Verif.Spec.MapLoop
import Verif.Proofs.MapLoop
import Verif.Props.MapLoop
import Verif.Model.Sources
import Verif.Spec.Sources
import Verif.Proofs.Sources
import Verif.Props.Sources
import Verif.Model.ReprText
import Verif.Spec.ReprText
import Verif.Proofs.ReprText
import Verif.Props.ReprText
import Verif.Spec.ReprWritten
import Verif.Proofs.ReprWritten
import Verif.Props.ReprWritten
import Verif.Model.Regions
import Verif.Spec.Regions
import Verif.Proofs.Regions
import Verif.Proofs.RegionsText
import Verif.Props.Regions
