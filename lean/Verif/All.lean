import Verif.Ticks.Props
import Verif.Guid.Props
import Verif.Guid.TextProps
import Verif.HashSet.Props
import Verif.Format.Props
import Verif.Tssc.CodeProps
import Verif.Tssc.AdaptProps
import Verif.Tssc.VarintProps
import Verif.Tssc.StreamProps
import Verif.Tssc.MalformedProps
import Verif.Tssc.CutProps
import Verif.Sic.CutProps
import Verif.Sic.Props
import Verif.Compact.FlagProps
import Verif.Compact.Props
import Verif.Session.StreamProps
import Verif.Session.GateProps
import Verif.Session.TsscProps
import Verif.Session.CompactProps
import Verif.Session.TimeProps
import Verif.Session.TotalProps
import Verif.Session.Totals
import Verif.Session.SideProps
import Verif.Session.PublishProps
import Verif.Session.DataChannelProps
import Verif.Session.ReconnectProps
import Verif.Session.CacheProps
import Verif.Session.BlockProps
import Verif.Modes.Props
import Verif.Modes.SubscribeProps
import Verif.Thread.Props
import Verif.Thread.Exact
import Verif.Connector.Props
import Verif.Connector.CancelProps
import Verif.Connector.CancelExact
import Verif.Sync.Registry
import Verif.Sync.Reader
import Verif.Sync.Callback
import Verif.Sync.Lifecycle
import Verif.Sync.Send
import Verif.Sync.Reconnect
import Verif.Sync.ReconnectProps
import Verif.Sync.ReconnectLock
import Verif.Sync.Listen
import Verif.Sync.ListenProps
import Verif.Sync.ListenTurns
import Verif.Sync.Pool
import Verif.Sync.PoolProps
import Verif.Expr.Toy
import Verif.Expr.TypeProps
import Verif.Expr.OpProps
import Verif.Expr.ArithProps
import Verif.Expr.ConvertProps
import Verif.Expr.InProps
import Verif.Expr.LikeProps
import Verif.Expr.FnProps
import Verif.Expr.TextProps
import Verif.Table.LookupProps
import Verif.Table.RowProps
import Verif.Table.NumberProps
import Verif.Table.OrderProps
import Verif.Table.SelectProps
import Verif.Table.ParserProps
import Verif.Table.ParserStatements
import Verif.Meta.SignalRef
import Verif.Meta.SignalType
import Verif.Meta.Registry
import Verif.Meta.Keys
import Verif.Meta.Summary
import Verif.Expr.Reading
import Verif.Xml.Predicate
import Verif.Xml.DecodeProps
import Verif.Data.Props
import Verif.Xml.WriteProps
import Verif.Data.Bytes
import Verif.Parse.LiteralProps
import Verif.Expr.LogicProps
import Verif.Expr.StringProps
import Verif.Expr.NumProps
import Verif.Expr.DateProps
import Verif.Lex.LexProps
import Verif.Lex.WordProps
import Verif.Lex.LiteralTokens
import Verif.Lex.KeyTokens
import Verif.Lex.Spread
import Verif.Lex.Written
import Verif.Lex.Append
import Verif.Lex.Meaning
import Verif.Lex.Names
import Verif.Lex.NamesProps
import Verif.Parse.StatementProps
import Verif.Table.TextCases
import Verif.Format.FloatProps
import Verif.Session.SendProps
import Verif.Client.AddressProps
import Verif.Client.Props
import Verif.Client.CallbacksProps
import Verif.Client.Sequence
import Verif.Client.Changes
import Verif.Client.SettingsProps
import Verif.Table.FromTable
import Verif.Table.SelectExact
import Verif.Client.ConnectionID
import Verif.Lib.NumberProps
import Verif.Lib.SpecialProps
import Verif.Lib.CompareProps
import Verif.Lib.TextProps
import Verif.Lib.TrimProps
import Verif.Lib.SummaryProps
import Verif.Lib.Laws
import Verif.Lib.DurationProps
import Verif.Lib.TimeTextProps
import Verif.Ticks.TextProps
import Verif.Lib.TimeReadProps
import Verif.Lib.XmlProps
import Verif.Lib.XmlBytes
import Verif.Lib.MetadataProps
import Verif.Lib.ImageProps
import Verif.Sync.CloseProps
import Verif.Sic.LengthProps
import Verif.Lex.CodesProps
import Verif.Table.CopyProps
import Verif.Sync.DataSocketProps
import Verif.Parse.Stopped
import Verif.Parse.StoppedProps
import Verif.Table.Stopped
import Verif.Table.Again
import Verif.Table.Stray
import Verif.Session.Rotation
import Verif.Session.Read
import Verif.Sync.Stop
import Verif.Sync.ListenEnd
import Verif.Lib.AesProps
import Verif.Session.Sealed
import Verif.Lib.InflateProps
import Verif.Session.Compressed
import Verif.Sync.Inside
import Verif.Session.KeyRotation
import Verif.Examples.CommandLine
import Verif.Session.Flight
import Verif.Lib.Case
import Verif.Sync.CloseLeave
import Verif.Lib.RegexpText
import Verif.Lib.RegexpNotation
import Verif.Lib.RegexpGrammar
import Verif.Examples.ShowProps
import Verif.Examples.FilterText
import Verif.Lib.Float
import Verif.HashSet.Comparable
import Verif.Lib.FloatText
import Verif.Lib.GuidText
