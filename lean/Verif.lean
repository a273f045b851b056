import Verif.Model.Prelude
import Verif.Model.BoxedUint
import Verif.Model.Rng
import Verif.Model.Pad
import Verif.Model.Pkcs1v15Pad
import Verif.Model.Mgf
import Verif.Model.OaepPad
import Verif.Model.PssPad
import Verif.Model.KeyTypes
import Verif.Model.Rsa
import Verif.Model.Key
import Verif.Model.Generate
import Verif.Model.Pkcs1v15
import Verif.Model.Pss
import Verif.Model.Oaep
import Verif.Model.Api
import Verif.Model.Der
import Verif.Model.Encoding
import Verif.Spec.Rfc8017
import Verif.Proof.Res
import Verif.Proof.Bytes
import Verif.Spec.Key
import Verif.Spec.Der
import Verif.Proof.Num
import Verif.Proof.Pad
import Verif.Proof.Rsa
import Verif.Proof.Precompute
import Verif.Proof.PublicKey
import Verif.Proof.Pkcs1v15Pad
import Verif.Proof.Pkcs1v15
import Verif.Proof.Mgf
import Verif.Proof.OaepPad
import Verif.Proof.Oaep
import Verif.Proof.PssPad
import Verif.Proof.Pss
import Verif.Props.ExampleKeys
import Verif.Props.Raw
import Verif.Props.Pkcs1v15
import Verif.Props.Oaep
import Verif.Props.Pss
import Verif.Proof.Key
import Verif.Proof.Recover
import Verif.Proof.FromPrimes
import Verif.Props.Keys
import Verif.Spec.Generate
import Verif.Proof.Generate
import Verif.Props.Generate
import Verif.Model.Float
import Verif.Spec.Float
import Verif.Props.Float
import Verif.Proof.Der
import Verif.Proof.Encoding
import Verif.Proof.EncodingReturns
import Verif.Props.Encoding
import Verif.Props.EncodingTotal
import Verif.Props.Wrappers
import Verif.Proof.Returns
import Verif.Props.Panics
import Verif.Model.Serde
import Verif.Spec.Hex
import Verif.Proof.Serde
import Verif.Props.Serde
import Verif.Props.Journey
import Verif.Props.Session
import Verif.Props.Twins
import Verif.Props.Rejection
import Verif.Props.Draws
import Verif.Props.Generator
import Verif.Props.SerdeStruct
import Verif.Model.AlgId
import Verif.Props.AlgId
import Verif.Props.EndToEnd
import Verif.Props.Binding
import Verif.Props.Hiding
import Verif.Model.Pkcs1
import Verif.Conformance.Sha
import Verif.Conformance.Vectors
import Verif.Conformance.VectorsDer
import Verif.Props.Pkcs1
import Verif.Props.Faults
import Verif.Props.Access
import Verif.Props.Leak
import Verif.Props.LeakOps
import Verif.Spec.KeyErrors
import Verif.Props.KeyErrors
import Verif.Props.KeyTotal
import Verif.Spec.Decoding
import Verif.Props.Decoding
import Verif.Spec.Outcome
import Verif.Props.Outcome
import Verif.Props.Trace
import Verif.Props.GenerateTotal
import Verif.Props.Documents
import Verif.Props.RawPrivate
import Verif.Props.AnyKey
import Verif.Props.SignatureOutcome
import Verif.Props.Uniform
import Verif.Props.LeakKey
import Verif.Props.LeakEq
import Verif.Props.Chance
import Verif.Props.Accepted
import Verif.Props.CrtFault
import Verif.Props.Algebra
import Verif.Props.Release
import Verif.Model.Release
import Verif.Spec.Release
import Verif.Proof.Release
import Verif.Model.Words
import Verif.Spec.Words
import Verif.Proof.Words
import Verif.Props.Words
import Verif.Model.WordsPrivate
import Verif.Spec.WordsKey
import Verif.Proof.WordsPrivate
import Verif.Props.WordsPrivate
import Verif.Model.WordsKey
import Verif.Proof.WordsKey
import Verif.Props.WordsKey
import Verif.Model.WordsPrimes
import Verif.Proof.WordsPrimes
import Verif.Props.WordsPrimes
import Verif.Model.WordsGenerate
import Verif.Spec.WordsGenerate
import Verif.Proof.WordsGenerate
import Verif.Props.WordsGenerate
import Verif.Model.WordsRecover
import Verif.Proof.WordsRecover
import Verif.Props.WordsRecover
import Verif.Model.WordsWrite
import Verif.Proof.WordsWrite
import Verif.Props.WordsWrite
