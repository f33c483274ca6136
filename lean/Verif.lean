import Verif.Py.Str
import Verif.Lemmas.Str
import Verif.Model.Reference
import Verif.Props.Reference
import Verif.Props.Urn
import Verif.Props.RefsDecl
import Verif.Props.Citation
import Verif.Props.CitationHeap
import Verif.Props.Xml
import Verif.Props.LocalText
import Verif.Props.Siblings
import Verif.Props.Generic
import Verif.Props.Export
import Verif.Props.Pagination
import Verif.Props.Metadata
import Verif.Props.Subgraph
import Verif.Props.Exportable
import Verif.Props.Collection
import Verif.Props.CollectionHistory
import Verif.Model.Inventory
import Verif.Spec.Inventory
import Verif.Lemmas.Keyed
import Verif.Props.Inventory
import Verif.Props.InventoryParse
import Verif.Props.InventorySearch
import Verif.Props.InventoryMetadata
import Verif.Model.Retriever
import Verif.Spec.Retriever
import Verif.Props.Retriever
import Verif.Model.DtsResolver
import Verif.Spec.DtsResolver
import Verif.Lemmas.DtsResolver
import Verif.Props.DtsResolver
import Verif.Model.DtsCollection
import Verif.Spec.DtsCollection
import Verif.Lemmas.Dict
import Verif.Props.DtsCollection
import Verif.Model.RemotePassage
import Verif.Spec.RemotePassage
import Verif.Lemmas.RemotePassage
import Verif.Props.RemotePassage
import Verif.Model.InventoryXml
import Verif.Spec.InventoryXml
import Verif.Lemmas.InventoryXml
import Verif.Lemmas.InventoryXmlParse
import Verif.Lemmas.InventoryXmlNames
import Verif.Props.InventoryXml
import Verif.Model.MetadataExport
import Verif.Spec.MetadataExport
import Verif.Lemmas.MetadataExport
import Verif.Props.MetadataExport
import Verif.Model.TeiRefsDecl
import Verif.Spec.TeiRefsDecl
import Verif.Props.TeiRefsDecl
import Verif.Model.DtsJson
import Verif.Spec.DtsJson
import Verif.Lemmas.DtsJson
import Verif.Props.DtsJson
import Verif.Lemmas.DtsParse
import Verif.Props.DtsParse
import Verif.Props.DtsRoundTrip
import Verif.Model.DtsDocument
import Verif.Spec.DtsDocument
import Verif.Props.DtsDocument
import Verif.Props.CtsMetadata
import Verif.Props.LocalResolver
import Verif.Props.StructuredMetadata
import Verif.Props.RemoteText
import Verif.Props.RemoteMetadata
import Verif.Props.InventoryGraph
import Verif.Props.CitationSetters
import Verif.Props.AllReffs
import Verif.Props.Uri
import Verif.Props.LocalParse
import Verif.Props.CtsObjects
import Verif.Props.TextNodes
import Verif.Props.Reading
import Verif.Props.Merge
import Verif.Props.Serving
import Verif.Props.Resolvers
import Verif.Props.Dispatching
import Verif.Props.DtsReading
import Verif.Props.DtsBrowse
import Verif.Props.DtsHarvest
import Verif.Props.CtsHistory
import Verif.Props.TextHistory
import Verif.Props.Quoting
import Verif.Props.MetadataGraph
import Verif.Props.PassageCache
import Verif.Props.FileHistory
import Verif.Props.XmlObjects
import Verif.Props.XmlComments
import Verif.Props.TextComments
import Verif.Props.Graphs
import Verif.Props.Copying
import Verif.Props.Keys
import Verif.Props.Threads
import Verif.Props.ChildGenerators
import Verif.Props.CitationCopies
import Verif.Props.UrnCopies
import Verif.Props.UrnHolders
import Verif.Props.DtsReference
import Verif.Tests.Reference
import Verif.Tests.Urn
import Verif.Tests.Citation
import Verif.Tests.Metadata
import Verif.Tests.Retriever
import Verif.Tests.LocalText
