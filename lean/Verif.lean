import Verif.Py
import Verif.Iri.Props
import Verif.Iri.PercentProps
import Verif.Iri.RelProps
import Verif.Content.Props
import Verif.XPath.StringsProps
import Verif.XPath.NumProps
import Verif.XPath.ArithProps
import Verif.XPath.CompareProps
import Verif.Dom.EditProps
import Verif.Dom.OrderProps
import Verif.Dom.AxesProps
import Verif.Dom.ValueProps
import Verif.Dom.TableProps
import Verif.Dom.NamespacesProps
import Verif.Dom.NodeIdProps
import Verif.Dom.BaseProps
import Verif.Eval.Props
import Verif.Eval.Refute
import Verif.Eval.TermProps
import Verif.Write.Props
import Verif.Write.Refute
import Verif.Write.VisitProps
import Verif.Xslt.NumbersProps
import Verif.Xslt.ExsltProps
import Verif.Util.IterProps
import Verif.Util.Iso8601Props
import Verif.Names.Props
import Verif.Push.Props
import Verif.Template.PatternRefute
import Verif.Template.SelectRefute
import Verif.Xslt.SortProps
import Verif.Xslt.InstRefute
import Verif.Xslt.ImportRefute
import Verif.Xslt.SpaceProps
import Verif.Parse.XPathProps
import Verif.Parse.LexProps
import Verif.Parse.AstProps
import Verif.Bind.Props
import Verif.Xslt.CountProps
import Verif.Template.KeyRefute
import Verif.Xslt.DecimalRefute
import Verif.XUpdate.Props
import Verif.Parse.AvtProps
import Verif.Parse.PatternProps
import Verif.Write.StructProps
import Verif.Xslt.GlobalsProps
import Verif.Xslt.ExsltStrProps
import Verif.Xslt.OutputProps
import Verif.Write.WriterProps
import Verif.Parse.InternProps
import Verif.Write.HtmlProps
import Verif.Write.PrettyProps
import Verif.Dom.BuildProps
import Verif.Parse.SaxProps
import Verif.Code.Props
import Verif.Xslt.Rd.Props
import Verif.Xslt.Lre.Props
import Verif.Iri.Resolver.Props
import Verif.Iri.Uridict.Props
import Verif.XUpdate.ReadProps
import Verif.XUpdate.InstProps
import Verif.Eg.Props
import Verif.Eg.MetaProps
import Verif.Path.Props
import Verif.Compare.Props
import Verif.Write.XhtmlProps
import Verif.Dom.CopyProps
import Verif.Util.TemplateProps
import Verif.Dom.UnwrapProps
import Verif.Util.TrimProps
import Verif.Util.LegalizeProps
import Verif.Iri.SyntaxProps
import Verif.Iri.NtPathProps
import Verif.Iri.JoinProps
import Verif.Xslt.RegexpProps
import Verif.Iri.SafeProps
import Verif.Util.PseudoAttrsProps
import Verif.Path.ParamsProps
