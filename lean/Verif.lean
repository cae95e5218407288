import Verif.Dates.Props
import Verif.Calendar.Props
import Verif.Interp.Props
import Verif.Root.Props
import Verif.Curves.Props
import Verif.Curves.MixProps
import Verif.Fixings.Props
import Verif.Dividends.Props
import Verif.Forward.Props
import Verif.Forward.LineProps
import Verif.Vol.Props
import Verif.Vol.DynamicsLemmas
import Verif.Vol.DynamicsProps
import Verif.Vol.SurfaceProps
import Verif.Instruments.Props
import Verif.Instruments.OptionProps
import Verif.Instruments.ExpiryProps
import Verif.Instruments.BlackProps
import Verif.Instruments.DependencyProps
import Verif.Market.Props
import Verif.Risk.DeltaProps
import Verif.Risk.VegaProps
import Verif.Risk.ReportProps
import Verif.Risk.RollProps
import Verif.Risk.ComparisonProps
import Verif.Serial.DedupProps
import Verif.Serial.SessionProps
import Verif.Serial.TaggedProps
import Verif.MonteCarlo.Props
import Verif.MonteCarlo.Correlation
import Verif.MonteCarlo.Agreement
import Verif.MonteCarlo.Reports
import Verif.MonteCarlo.RiskProps
import Verif.MonteCarlo.VegaProps
import Verif.MonteCarlo.SignProps
import Verif.MonteCarlo.ExplainProps
import Verif.MonteCarlo.Rolling
import Verif.MonteCarlo.StruckProps
import Verif.Root.NanModel
import Verif.Root.NanProps
import Verif.Solvers.Model
import Verif.Solvers.Spec
import Verif.Solvers.Lemmas
import Verif.Solvers.Props
import Verif.Facade.Model
import Verif.Facade.Spec
import Verif.Facade.Lemmas
import Verif.Facade.Props
import Verif.Instruments.ValueProps
import Verif.Market.DatesProps
import Verif.Market.ContextLemmas
import Verif.Market.ContextProps
import Verif.Risk.PriceProps
import Verif.Serial.ReadLemmas
import Verif.Serial.ReadProps
import Verif.MonteCarlo.ModelProps
import Verif.Root.SufficientProps
import Verif.Solvers.SufficientProps
import Verif.Solvers.EuropeanProps
import Verif.Facade.TextProps
import Verif.Interp.SearchProps
import Verif.Rounded.Props
import Verif.Times.Props
import Verif.Load.Props
import Verif.MonteCarlo.ReportOrder
import Verif.Rounded.RootModel
import Verif.Rounded.RootLemmas
import Verif.Rounded.RootSufficient
import Verif.Rounded.RootProps
import Verif.Rounded.CalendarModel
import Verif.Rounded.CalendarLemmas
import Verif.Rounded.CalendarProps
import Verif.Rounded.RiskModel
import Verif.Rounded.RiskProps
import Verif.Rounded.CurveModel
import Verif.Rounded.CurveProps
import Verif.Rounded.ForwardModel
import Verif.Rounded.ForwardProps
import Verif.Rounded.ForwardClose
import Verif.Rounded.BlackModel
import Verif.Rounded.BlackProps
import Verif.Rounded.AverageModel
import Verif.Rounded.AverageProps
import Verif.Rounded.AverageExact
import Verif.Rounded.ApproxModel
import Verif.Rounded.ApproxProps
import Verif.Rounded.PathModel
import Verif.Rounded.PathProps
import Verif.Rounded.PathClose
import Verif.Calendar.SearchProps
import Verif.Calendar.RuleModel
import Verif.Calendar.RuleProps
import Verif.Dividends.SearchProps
import Verif.Vol.SearchProps
import Verif.Vol.PanicProps
import Verif.Instruments.PanicProps
import Verif.Risk.PanicProps
import Verif.MonteCarlo.PanicProps
import Verif.MonteCarlo.StepProps
import Verif.Instruments.Lognormal
import Verif.Instruments.ExpectationProps
import Verif.MonteCarlo.Convergence
import Verif.MonteCarlo.ConvergenceProps
import Verif.MonteCarlo.SharedProps
import Verif.MonteCarlo.ForwardConvergence
import Verif.Interp.LineProps
import Verif.Risk.PortfolioProps
import Verif.Risk.GreeksProps
import Verif.Risk.ArbitrageProps
import Verif.Risk.CalendarProps
import Verif.Risk.DecayProps
import Verif.Risk.RhoProps
import Verif.Risk.PayoutProps
import Verif.Risk.MixedPayProps
import Verif.Risk.OrderProps
import Verif.Risk.ThetaProps
import Verif.Risk.RatesSpec
import Verif.Risk.RatesLemmas
import Verif.Risk.RatesProps
import Verif.MonteCarlo.RatesProps
import Verif.MonteCarlo.OrderProps
import Verif.Units.ReportLemmas
import Verif.MonteCarlo.UnitLemmas
import Verif.MonteCarlo.UnitProps
import Verif.MonteCarlo.ScaleProps
import Verif.Interp.RedundantLemmas
import Verif.Interp.RedundantProps
import Verif.Risk.RedundantProps
import Verif.Risk.FundingSpec
import Verif.Risk.FundingLemmas
import Verif.Risk.FundingProps
import Verif.Risk.FundingReports
import Verif.MonteCarlo.FundingProps
import Verif.MonteCarlo.RhoProps
import Verif.MonteCarlo.StruckShared
import Verif.Risk.GrossProps
import Verif.Risk.TextbookProps
import Verif.Risk.SumProps
import Verif.Dividends.AcceptProps
import Verif.Units.Spec
import Verif.Units.VolLemmas
import Verif.Units.MarketLemmas
import Verif.Units.PriceLemmas
import Verif.Units.RiskLemmas
import Verif.Units.SmileLemmas
import Verif.Units.Props
import Verif.Units.ScaleProps
import Verif.Currency.Model
import Verif.Currency.Props
