import Verif.Props.PathProps
import Verif.Props.PathGrammarProps
import Verif.Props.RuleProps
import Verif.Props.MatcherProps
import Verif.Props.CompareProps
import Verif.Props.CompareRuleProps
import Verif.Props.LikeProps
import Verif.Props.QueryProps
import Verif.Props.HeaderProps
import Verif.Props.ResultProps
import Verif.Props.EndToEndProps
import Verif.Props.MatcherTableProps
import Verif.Props.QueryStringProps
import Verif.Props.MessageProps
import Verif.Props.JsonUtilsProps
import Verif.Props.BodyGeneratorProps
import Verif.Props.MergeProps
import Verif.Props.WritePactProps
import Verif.Props.ExprProps
import Verif.Props.HandleProps
import Verif.Props.VerifierProps
import Verif.Props.RuleJsonProps
import Verif.Props.GenerateProps
import Verif.Patterns
import Verif.Props.LocalityProps
import Verif.Props.PatternProps
import Verif.Props.PatternDenotation
import Verif.Props.PatternExamples
import Verif.Base64
import Verif.PactFile
import Verif.Props.PactFileProps
import Verif.PactFileV3
import Verif.Props.PactV3Props
import Verif.Props.PactV2Props
import Verif.Props.PactLoadProps
import Verif.Props.PactConvertProps
import Verif.DefExpr
import Verif.Props.DefExprProps
import Verif.Integration
import Verif.Props.IntegrationProps
import Verif.Parts
import Verif.Props.PartProps
import Verif.Xml
import Verif.Props.XmlProps
import Verif.Time
import Verif.Props.TimeProps
import Verif.Props.TimePatternProps
import Verif.Props.TimeGenProps
import Verif.DateExpr
import Verif.Props.DateCalProps
import Verif.Props.DateParseProps
import Verif.Props.DateStepProps
import Verif.Props.DateExprProps
import Verif.Props.DateGenProps
import Verif.Form
import Verif.Props.FormProps
import Verif.Props.FormGenProps
import Verif.Props.FormJsonProps
import Verif.Props.FormRuleProps
import Verif.Engine
import Verif.EnginePlan
import Verif.Props.EngineWalk
import Verif.Props.EngineDone
import Verif.Props.EngineRules
import Verif.Props.EngineLoc
import Verif.Props.EngineSpec
import Verif.Props.EngineInject
import Verif.Props.EngineLabels
import Verif.Props.EngineJson
import Verif.Props.EngineParts
import Verif.Props.EngineBody
import Verif.Props.EngineContent
import Verif.Props.EngineRequest
import Verif.Props.EngineTotal
import Verif.Props.EngineProps
import Verif.Props.EngineExamples
import Verif.Multipart
import Verif.Props.MultipartProps
import Verif.Detect
import Verif.Props.DetectProps
import Verif.XmlBuild
import Verif.Props.XmlBuildProps
import Verif.Props.XmlPathProps
import Verif.BodyBuild
import Verif.Props.BodyBuildProps
import Verif.Broker
import Verif.Props.BrokerProps
import Verif.Provider
import Verif.Props.ProviderProps
import Verif.Props.ProviderMessageProps
import Verif.ApplyGen
import Verif.Props.ApplyGenProps
import Verif.Props.ApplyGenBodyProps
import Verif.Props.ApplyGenValueProps
import Verif.Props.StateValueProps
import Verif.InteractionOps
import Verif.Props.SessionProps
import Verif.Props.SessionBodyProps
import Verif.Props.SessionRuleProps
import Verif.Props.SessionMetaProps
import Verif.Props.SessionFileProps
import Verif.Builders
import Verif.Props.BuilderProps
import Verif.Props.BuilderMatchProps
import Verif.MessageBuilders
import Verif.Props.MessageBuilderProps
import Verif.Props.MessageBuilderMatchProps
import Verif.PactBuilder
import Verif.Props.PactBuilderProps
import Verif.MatchInteraction
import Verif.Props.MatchInteractionProps
import Verif.Props.BuilderFileProps
import Verif.Props.ReadRulesProps
import Verif.Props.ReadMessageProps
import Verif.Props.ReadDocProps
import Verif.Props.ReadRuleProps
import Verif.Props.ReadGenProps
import Verif.Props.ReadPartProps
import Verif.Props.ReadFileProps
import Verif.Props.ReadOldProps
import Verif.Report
import Verif.Props.ReportProps
import Verif.Props.ReportOutputProps
