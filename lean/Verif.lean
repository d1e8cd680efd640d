import Verif.Props.Sharing
import Verif.Props.BN
import Verif.Props.BNShamir
import Verif.Props.CLHelpers
import Verif.Props.CLRevocation
import Verif.Props.CLNonRevoc
import Verif.Props.CLPrimary
import Verif.Props.CLPresentation
import Verif.Props.CLTails
import Verif.Props.CLVerifier
import Verif.Props.BLS
import Verif.Props.Symm
import Verif.Props.PoKVC
import Verif.Props.BBS
import Verif.Props.BBSProof
import Verif.Props.BBSMore
import Verif.Props.BBSWire
import Verif.Props.PS
import Verif.Props.PSProof
import Verif.Props.PSMore
import Verif.Props.Groth
import Verif.Props.GrothChain
import Verif.Props.GrothToken
import Verif.Props.GrothTokenSound
import Verif.Props.GrothTokenMore
import Verif.Props.GrothTokenZk
import Verif.Props.GrothTokenChallenge
import Verif.Props.CS
import Verif.Props.CSProof
import Verif.Props.CSSound
import Verif.Props.CSReject
import Verif.Props.BPIpp
import Verif.Props.BPIppSound
import Verif.BP.R1CS
import Verif.Props.BPProg
import Verif.Props.BPFlat
import Verif.Props.BPR1CS
import Verif.Props.BPR1CSMain
import Verif.Props.BPHiding
import Verif.Props.BPSound
import Verif.Props.BPSoundMet
import Verif.BP.Gadgets
import Verif.Props.BPGadgetBase
import Verif.Props.BPGadgets
import Verif.Props.BPSets
import Verif.Props.BPSetAlt
import Verif.Props.BPGadgetsE2E
import Verif.BP.Poseidon
import Verif.Props.BPPoseidonBase
import Verif.Props.BPPoseidon
import Verif.Props.BPPerm
import Verif.BP.Merkle
import Verif.Props.BPTree
import Verif.Props.BPTreeProof
import Verif.Props.BPMerkleBase
import Verif.Props.BPMerkle
import Verif.Props.BPMerkleLevels
import Verif.FFI.Model
import Verif.FFI.Table
import Verif.FFI.Spec
import Verif.Props.FFIBase
import Verif.Props.FFICall
import Verif.Props.FFI
import Verif.FFI.Encryption
import Verif.Props.FFIEncryption
import Verif.Sig.Bytes
import Verif.Sig.Ed25519
import Verif.Props.Ed25519
import Verif.Props.X25519
import Verif.Sig.Secp256k1
import Verif.Props.Secp256k1
import Verif.BN.Text
import Verif.BN.OpenSSL
import Verif.Props.BNText
import Verif.Props.BNBuilds
import Verif.Pair.Model
import Verif.Props.Pair
import Verif.CL.Json
import Verif.CL.Builders
import Verif.Props.CLJson
import Verif.Props.CLJsonForm
import Verif.Props.CLBuilders
import Verif.Wasm.Model
import Verif.Props.KeyText
import Verif.Props.Wasm
import Verif.BP.PoseidonConstants
import Verif.Props.Bls381Order
import Verif.Props.BPPoseidonPerm
import Verif.Errors.Model
import Verif.Props.Errors
import Verif.Props.ErrorThreads
import Verif.Props.Logger
import Verif.Props.CLHiding
import Verif.Props.CLHidingRev
import Verif.Props.CLLinking
import Verif.Props.CLIssued
import Verif.Props.CLSound
import Verif.Props.CLDelta
import Verif.Props.CLPanic
import Verif.Props.CLBuilderState
import Verif.Props.Forking
import Verif.Props.ForkedPoK
import Verif.Props.ForkedToken
import Verif.Props.BLSReduction
import Verif.Props.BLSUnforgeable
import Verif.Props.Resample
import Verif.Props.SchnorrReduction
import Verif.Props.Ed25519Forgery
import Verif.Props.BPBinding
import Verif.Props.BPStatement
import Verif.Props.RSACount
import Verif.Props.StrongRSA
import Verif.Props.StrongRSAGame
import Verif.Props.CLForgery
import Verif.Props.CLShift
import Verif.Props.GrothCounts
import Verif.Props.SDHGame
import Verif.Props.SDHCount
import Verif.Props.BBSForgery
import Verif.Props.PSForgery
import Verif.Props.ForkingKeep
import Verif.Props.BLSRogue
import Verif.Props.ForkingEach
import Verif.Props.BBSPresent
import Verif.Props.PSPresent
import Verif.Props.SymmForgery
import Verif.Props.SymmSecrecy
import Verif.Props.SymmCCA
import Verif.Props.CSSecrecy
import Verif.CS.Texts
import Verif.Props.CSErrors
import Verif.Props.CSCCA
import Verif.Props.RevForgery
import Verif.Props.SigHandle
import Verif.Props.SharingHiding
import Verif.Props.BNShamirHiding
import Verif.Props.RevContext
import Verif.Props.SharingAdaptive
import Verif.Props.SessionKeys
import Verif.Props.BBSBlindHiding
import Verif.Props.PoKHiding
import Verif.Props.Unlinkable
import Verif.Props.Anonymity
import Verif.Props.TokenAnonymity
import Verif.Props.PSSimulate
import Verif.Props.IssuanceUnlinkable
import Verif.Props.BBSSimulate
import Verif.Props.BBSTogether
import Verif.Props.BBSLinked
import Verif.Props.BBSReuse
