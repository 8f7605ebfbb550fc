import Verif.Base.Str
import Verif.Base.Map
import Verif.Model.Profile
import Verif.Model.Tag
import Verif.Model.Num
import Verif.Model.Value
import Verif.Model.Coalesce
import Verif.Model.Find
import Verif.Model.Metadata
import Verif.Model.Error
import Verif.Model.Figment
import Verif.Spec.View
import Verif.Lemmas.Value
import Verif.Lemmas.Coalesce
import Verif.Spec.Data
import Verif.Spec.History
import Verif.Spec.Examples
import Verif.Lemmas.Figment
import Verif.Lemmas.View
import Verif.Lemmas.Provide
import Verif.Props.Combine
import Verif.Model.Process
import Verif.Spec.Path
import Verif.Lemmas.Tag
import Verif.Lemmas.Find
import Verif.Lemmas.Process
import Verif.Props.Tag
import Verif.Props.Threads
import Verif.Props.Path
import Verif.Model.Extract
import Verif.Model.Ser
import Verif.Spec.Errors
import Verif.Spec.Num
import Verif.Lemmas.History
import Verif.Lemmas.Error
import Verif.Lemmas.Focus
import Verif.Lemmas.Ser
import Verif.Lemmas.Num
import Verif.Lemmas.Same
import Verif.Props.Layer
import Verif.Props.History
import Verif.Props.Lookup
import Verif.Props.Value
import Verif.Props.Ser
import Verif.Props.Error
import Verif.Spec.Origin
import Verif.Lemmas.Origin
import Verif.Lemmas.Made
import Verif.Props.Origin
import Verif.Base.Dec
import Verif.Model.Parse
import Verif.Model.NumParse
import Verif.Spec.Text
import Verif.Spec.Print
import Verif.Lemmas.Escape
import Verif.Lemmas.Text
import Verif.Lemmas.Parse
import Verif.Lemmas.Grammar
import Verif.Lemmas.Print
import Verif.Lemmas.Wellformed
import Verif.Lemmas.NumParse
import Verif.Props.Parse
import Verif.Props.Num
import Verif.Model.Env
import Verif.Spec.Env
import Verif.Lemmas.Env
import Verif.Lemmas.Miscut
import Verif.Props.Env
import Verif.Base.Path
import Verif.Lemmas.Path
import Verif.Model.Paths
import Verif.Spec.Walk
import Verif.Lemmas.Walk
import Verif.Lemmas.Diff
import Verif.Props.Paths
import Verif.Model.DataProvider
import Verif.Spec.DataProvider
import Verif.Lemmas.DataProvider
import Verif.Props.Data
import Verif.Model.Jail
import Verif.Spec.Jail
import Verif.Lemmas.Jail
import Verif.Spec.JailData
import Verif.Lemmas.JailData
import Verif.Props.Jail
import Verif.Props.JailData
import Verif.Model.De
import Verif.Model.Types
import Verif.Spec.Types
import Verif.Lemmas.De
import Verif.Lemmas.DeValue
import Verif.Lemmas.RoundTrip
import Verif.Lemmas.Extract
import Verif.Props.Extract
import Verif.Lemmas.Kept
import Verif.Props.Kept
import Verif.Lemmas.Magic
import Verif.Spec.Blame
import Verif.Lemmas.Blame
import Verif.Props.Blame
import Verif.Model.Magic
import Verif.Props.Magic
import Verif.Model.Display
import Verif.Props.Display
import Verif.Props.Util
import Verif.Spec.Part
import Verif.Lemmas.Reads
import Verif.Lemmas.Part
import Verif.Lemmas.Merged
import Verif.Props.Reads
import Verif.Spec.Means
import Verif.Lemmas.Means
import Verif.Props.Means
import Verif.Model.Either
import Verif.Spec.Either
import Verif.Lemmas.Strip
import Verif.Lemmas.ComplainsStrip
import Verif.Spec.Order
import Verif.Lemmas.Order
import Verif.Spec.Case
import Verif.Spec.Stack
import Verif.Spec.LastWord
import Verif.Spec.Build
import Verif.Spec.Vars
import Verif.Spec.ByField
import Verif.Spec.Local
import Verif.Lemmas.Local
import Verif.Lemmas.Either
import Verif.Props.Either
import Verif.Model.ProfileSerde
import Verif.Props.Profile
import Verif.Spec.Result
import Verif.Props.Result
import Verif.Model.From
import Verif.Lemmas.From
import Verif.Props.Access
import Verif.Props.Asking
import Verif.Spec.Complains
import Verif.Lemmas.Complains
import Verif.Lemmas.ComplainsTy
import Verif.Props.Complains
import Verif.Props.Convert
import Verif.Lemmas.Buffer
import Verif.Lemmas.Flatten
import Verif.Props.Buffer
import Verif.Props.Flatten
import Verif.Spec.Outcome
import Verif.Lemmas.Outcome
import Verif.Props.Outcome
import Verif.Model.Document
import Verif.Spec.Document
import Verif.Lemmas.Document
import Verif.Lemmas.Forged
import Verif.Props.Document
import Verif.Spec.Equal
import Verif.Lemmas.Equal
import Verif.Props.Equal
import Verif.Props.Chars
import Verif.Spec.Keys
import Verif.Spec.Maps
import Verif.Lemmas.Keys
import Verif.Lemmas.Maps
import Verif.Props.Keys
import Verif.Model.Float
import Verif.Spec.Float
import Verif.Lemmas.Float
import Verif.Props.Float
import Verif.Props.Serial
import Verif.Props.Variable
import Verif.Props.Update
import Verif.Props.Order
import Verif.Props.Local
import Verif.Props.ByField
import Verif.Props.Vars
import Verif.Props.Build
import Verif.Props.LastWord
import Verif.Props.Stack
import Verif.Props.Sources
import Verif.Props.Case
