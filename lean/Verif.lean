import Verif.Common
import Verif.Wire.Props
import Verif.Wire.Halfway
import Verif.Cuds.Props
import Verif.Search.Props
import Verif.Query.Props
import Verif.Onto.InvProps
import Verif.Onto.AttrProps
import Verif.Sess.Props
import Verif.Sess.Witness
import Verif.Sess.Root
import Verif.Sess.Consume
import Verif.Iri.Props
import Verif.Sql.Columns
import Verif.Sql.Conditions
import Verif.Sql.Strings
import Verif.Server.Life
import Verif.Transport.Values
import Verif.Transport.Files
import Verif.Cuds.Root
import Verif.Schema.Exact
import Verif.Tables.Props
import Verif.Tables.Migrate
import Verif.Store.Props
import Verif.Sync.Props
import Verif.Sync.Load
import Verif.Sync.Witness
import Verif.Names.Words
import Verif.Install.Witness
import Verif.Yaml.Witness
import Verif.Yaml.Datatype
import Verif.Ymlp.Witness
import Verif.Export.Refuse
import Verif.Rdfp.Pins
import Verif.Utils.Props
import Verif.Show.Witness
import Verif.Camel.Witness
import Verif.Camel.Pins
import Verif.Recycle.Witness
import Verif.Connect.Client
import Verif.Draw.Witness
import Verif.Sim.Witness
import Verif.Persist.Witness
import Verif.Full.Witness
import Verif.Neighbor.Witness
import Verif.Onto.Pins
import Verif.Names.Pins
import Verif.Names.Registry
import Verif.Yaml.Pins
import Verif.Sql.Pins
import Verif.Recycle.Pins
import Verif.Install.Pins
import Verif.Wire.Pins
import Verif.Transport.Pins
import Verif.Server.Pins
import Verif.Search.Pins
import Verif.Sess.Pins
import Verif.Store.Pins
import Verif.Ymlp.Pins
import Verif.Draw.Pins
import Verif.Equal.Witness
import Verif.Stmt.Witness
import Verif.Value.Pins
import Verif.Setup.Pins
import Verif.Stmt.Pins
import Verif.Tables.Pins
import Verif.Sim.Pins
import Verif.Sync.Pins
import Verif.Remote.Witness
import Verif.Persist.Pins
import Verif.Remote.Pins
import Verif.Remote.QueryWitness
import Verif.Backup.Witness
import Verif.Fields.Witness
import Verif.Fields.Pins
import Verif.Connect.Pins
import Verif.Pico.Witness
import Verif.Migrate.Witness
import Verif.Multi.Witness
import Verif.Files.Witness
import Verif.Clients.Witness
import Verif.Frames.Witness
import Verif.Access.Model
import Verif.Access.Spec
import Verif.Access.Props
import Verif.Access.Witness
import Verif.Links.Model
import Verif.Links.Spec
import Verif.Links.Props
import Verif.Links.Witness
import Verif.Branch.Model
import Verif.Branch.Spec
import Verif.Branch.Props
import Verif.Branch.Witness
import Verif.Lazy.Model
import Verif.Lazy.Spec
import Verif.Lazy.Lemmas
import Verif.Lazy.Props
import Verif.Lazy.Changes
import Verif.Lazy.Witness
import Verif.Outage.Model
import Verif.Outage.Spec
import Verif.Outage.Lemmas
import Verif.Outage.Props
import Verif.Outage.Witness
import Verif.Down.Model
import Verif.Down.Spec
import Verif.Down.Lemmas
import Verif.Down.Props
import Verif.Down.Witness
import Verif.Copy.Model
import Verif.Copy.Lemmas
import Verif.Copy.Props
import Verif.Copy.Witness
import Verif.Copy.Pins
import Verif.Copy.Add
import Verif.Killed.Model
import Verif.Killed.Props
import Verif.Killed.Witness
import Verif.Killed.Between
import Verif.Killed.Repair
import Verif.Killed.Clear
import Verif.Killed.Kept
import Verif.Killed.Again
