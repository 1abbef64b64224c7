import Verif.Json
import Verif.Num
import Verif.Marshal
import Verif.Model
import Verif.Validate
import Verif.SpecNode
import Verif.SpecGraph
import Verif.SpecLoc
import Verif.LemValidate
import Verif.LemOrder
import Verif.LemAbort
import Verif.LemLoc
import Verif.LemMeaning
import Verif.LemErrors
import Verif.Demo
import Verif.PropValidate
import Verif.PropErrors
import Verif.SpecEqual
import Verif.LemMarshal
import Verif.LemNum
import Verif.PropEqual
import Verif.Mon
import Verif.Drafts
import Verif.Pool
import Verif.Parse
import Verif.Loader
import Verif.LemMon
import Verif.SpecDoc
import Verif.Corr
import Verif.LemCorr
import Verif.SpecPool
import Verif.LemPool
import Verif.LemParse
import Verif.LemParseSafe
import Verif.LemLoader
import Verif.SpecRewrite
import Verif.LemRewrite
import Verif.SpecCompile
import Verif.LemCompile
import Verif.DemoWorld
import Verif.LemWitness
import Verif.PropCompile
import Verif.LemHistory
import Verif.LemFiles
import Verif.PropLoader
import Verif.LemStrict
import Verif.PropRewrite
import Verif.SpecWell
import Verif.LemAccept
import Verif.LemTotal
import Verif.LemAcceptRoot
import Verif.DemoCheck
import Verif.PropAccept
import Verif.LemRegister
import Verif.SpecPanic
import Verif.LemPanic
import Verif.PropPanic
import Verif.SpecNumber
import Verif.LemRoot
import Verif.LemNumber
import Verif.PropNumber
import Verif.SpecDraft
import Verif.LemDraft
import Verif.PropDraft
import Verif.Context
import Verif.SpecContext
import Verif.PropContext
import Verif.SpecTypes
import Verif.PropTypes
import Verif.ResultApi
import Verif.LemResult
import Verif.PropResult
import Verif.IoLoader
import Verif.SpecIo
import Verif.PropIo
import Verif.Conc
import Verif.LemConc
import Verif.Registry
import Verif.SpecRegistry
import Verif.LemRegistry
import Verif.PropRegistry
import Verif.Templates
import Verif.SpecTemplates
import Verif.LemTemplates
import Verif.PropTemplates
import Verif.Regex
import Verif.SpecRegex
import Verif.LemFold
import Verif.LemRegex
import Verif.Formats
import Verif.SpecFormats
import Verif.LemFormats
import Verif.PropFormats
import Verif.SpecTerm
import Verif.LemTerm
import Verif.LemFuel
import Verif.LemMono
import Verif.PropTerm
import Verif.PropShare
import Verif.SpecMeta
import Verif.LemMeta
import Verif.PropMeta
import Verif.SpecFault
import Verif.LemFault
import Verif.PropFault
import Verif.SpecDocFault
import Verif.LemDocFault
import Verif.PropDocFault
import Verif.Messages
import Verif.SpecMessages
import Verif.LemMessages
import Verif.PropMessages
import Verif.SpecScore
import Verif.LemScore
import Verif.PropScore
import Verif.SpecIds
import Verif.LemIds
import Verif.LemAdds
import Verif.PropIds
import Verif.SpecFloat
import Verif.LemFloat
import Verif.PropFloat
import Verif.Raw
import Verif.SpecRaw
import Verif.LemRaw
import Verif.PropRaw
import Verif.Decode
import Verif.SpecText
import Verif.LemText
import Verif.LemTextStr
import Verif.LemTextVal
import Verif.LemTextStable
import Verif.LemTextMore
import Verif.SpecMetaDocs
import Verif.PropText
import Verif.SpecMetaShape
import Verif.LemMetaShape
import Verif.LemMetaValid
import Verif.LemMetaDraft
import Verif.LemMetaTable
import Verif.LemMetaExact
import Verif.LemMetaBack
import Verif.SpecMetaWorld
import Verif.LemMetaPool
import Verif.LemMetaUse
import Verif.LemMetaFail
import Verif.DemoMeta
import Verif.PropMetaShape
import Verif.SpecReach
import Verif.LemReach
import Verif.PropReach
import Verif.SpecReject
import Verif.LemBlame
import Verif.LemReject
import Verif.PropReject
import Verif.CompileTexts
import Verif.SpecCompileTexts
import Verif.LemCompileTexts
import Verif.PropCompileTexts
import Verif.SpecGap
import Verif.LemGap
import Verif.LemMetaFine
import Verif.PropGap
import Verif.GoLoader
import Verif.SpecGo
import Verif.LemGo
import Verif.LemGoTwice
import Verif.LemGoFmt
import Verif.PropGo
import Verif.LemSpelling
import Verif.LemSpellingRules
import Verif.LemSpellingShape
import Verif.PropSpelling
import Verif.SpecTrim
import Verif.LemTrim
import Verif.LemTrimIn
import Verif.LemTrimShape
import Verif.PropTrim
import Verif.SpecClosed
import Verif.LemClosed
import Verif.PropClosed
import Verif.LemNoFault
import Verif.SpecVisit
import Verif.LemVisit
import Verif.PropVisit
import Verif.InPlace
import Verif.SpecInPlace
import Verif.LemInPlace
import Verif.SpecAgain
import Verif.LemAgain
import Verif.PropInPlace
import Verif.SpecLaws
import Verif.LemLaws
import Verif.PropLaws
import Verif.LemAlike
import Verif.SpecAdding
import Verif.LemAdding
import Verif.PropAdding
import Verif.SpecDeref
import Verif.LemDeref
import Verif.PropDeref
import Verif.SpecLayers
import Verif.LemLayers
import Verif.PropLayers
import Verif.SpecWork
import Verif.LemWork
import Verif.LemWorkDoc
import Verif.PropWork
import Verif.LemSize
import Verif.LemSizeDoc
import Verif.PropSize
import Verif.LemKeywords
import Verif.PropKeywords
import Verif.CasesValidate
import Verif.CasesLoader
import Verif.RefLoader
import Verif.SpecRefLoader
import Verif.LemRefLoader
import Verif.PropRefLoader
import Verif.SpecReturn
import Verif.LemReturn
import Verif.SpecReturnDoc
import Verif.LemReturnDoc
import Verif.PropReturn
import Verif.SpecMetaReturn
import Verif.LemMetaReturn
import Verif.LemMetaHook
import Verif.PropMetaReturn
import Verif.Live
import Verif.LemLive
import Verif.LemLiveMono
import Verif.PropLive
import Verif.RawSchema
import Verif.SpecRawSchema
import Verif.LemRawSchema
import Verif.LemRawParse
import Verif.LemRawStrict
import Verif.LemRawTable
import Verif.RawLoader
import Verif.LemRawOps
import Verif.LemRawReach
import Verif.PropRawSchema
import Verif.Shared
import Verif.LemShared
import Verif.LemSharedOff
import Verif.PropShared
import Verif.LemRefused
import Verif.PropRefused
