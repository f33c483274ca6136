import Verif.Model.Export
import Verif.Model.Siblings
import Verif.Model.TeiRefsDecl
/-!
Assertions of /repo/tests/resources/texts/local/commonTests.py, evaluated on the model. These are tests, not proofs.

The document is /repo/tests/testing_data/texts/sample.xml without the poems that the assertions do not need, with blank
space between elements shortened, and with the citation declaration as all that is left of the header.
-/
namespace Verif.Tests
open Verif.Py Verif.Model

/-- An element with its attributes, text, children and tail. -/
def nd (tag : String) (attrs : List (String × String)) (text : String) (kids : List Node) (tail : String) : Node :=
  .mk tag.toList (attrs.map fun a => (a.1.toList, a.2.toList)) text.toList kids tail.toList

/-- The document. -/
def martial : Node :=
 nd "tei:TEI" [] " " [nd "tei:teiHeader" [] "" [nd "tei:refsDecl" [("n", "CTS")] " " [nd "tei:cRefPattern" [("n", "line"), ("matchPattern", "(\\\\w+).(\\\\w+).(\\\\w+)"), ("replacementPattern", "#xpath(/tei:TEI/tei:text/tei:body/tei:div/tei:div[@n=\\'$1\\']/tei:div[@n=\\'$2\\']/tei:l[@n=\\'$3\\'])")] " " [nd "tei:p" [] "This pointer pattern extracts book and poem and line" [] " "] " ",
   nd "tei:cRefPattern" [("n", "poem"), ("matchPattern", "(\\\\w+).(\\\\w+)"), ("replacementPattern", "#xpath(/tei:TEI/tei:text/tei:body/tei:div/tei:div[@n=\\'$1\\']/tei:div[@n=\\'$2\\'])")] " " [nd "tei:p" [] "This pointer pattern extracts book and poem" [] " "] " ",
   nd "tei:cRefPattern" [("n", "book"), ("matchPattern", "(\\\\w+)"), ("replacementPattern", "#xpath(/tei:TEI/tei:text/tei:body/tei:div/tei:div[@n=\\'$1\\'])")] " " [nd "tei:p" [] "This pointer pattern extracts book" [] " "] " "] " ",
  nd "tei:refsDecl" [("xml:id", "TEI.2")] " " [nd "tei:refState" [("unit", "book")] "" [] " ",
   nd "tei:refState" [("unit", "poem")] "" [] " ",
   nd "tei:refState" [("unit", "line")] "" [] " "] " "] "",
 nd "tei:text" [("n", "urn:cts:latinLit:phi1294.phi002.perseus-lat2"), ("xml:lang", "lat"), ("xml:id", "stoa0045.stoa0")] " " [nd "tei:body" [] " " [nd "tei:div" [("type", "edition"), ("n", "urn:cts:latinLit:phi1294.phi002.perseus-lat2")] " " [nd "tei:div" [("type", "textpart"), ("subtype", "book"), ("n", "1")] " " [nd "tei:div" [("type", "textpart"), ("subtype", "poem"), ("n", "pr")] " " [nd "tei:l" [("n", "1")] "Spero me secutum in libellis meis tale temperamen-" [] " ",
      nd "tei:l" [("n", "2")] "tum, ut de illis queri non possit quisquis de se bene " [] " ",
      nd "tei:l" [("n", "3")] "senserit, cum salva infimarum quoque personarum re-" [] " ",
      nd "tei:l" [("n", "4")] "verentia ludant; quae adeo antiquis auctoribus defuit, ut " [] " ",
      nd "tei:l" [("n", "5")] "nominibus non tantum veris abusi sint, sed et magnis. " [] " ",
      nd "tei:l" [("n", "6")] "Mihi fama vilius constet et probetur in me novissimum " [] " ",
      nd "tei:l" [("n", "7")] "ingenium. Absit a iocorum nostrorum simplicitate ma-" [] " ",
      nd "tei:l" [("n", "8")] "lignus interpres nec epigrammata mea scribat: inprobe " [] " ",
      nd "tei:l" [("n", "9")] "facit qui in alieno libro ingeniosus est. Lascivam ver-" [] " ",
      nd "tei:l" [("n", "10")] "borum veritatem, id est epigrammaton linguam, excu-" [] " ",
      nd "tei:l" [("n", "11")] "sarem, si meum esset exemplum: sic scribit Catullus, sic " [] " ",
      nd "tei:l" [("n", "12")] "Marsus, sic Pedo, sic Gaetulicus, sic quicumque perlegi-" [] " ",
      nd "tei:l" [("n", "13")] "tur. Si quis tamen tam ambitiose tristis est, ut apud " [] " ",
      nd "tei:l" [("n", "14")] "illum in nulla pagina latine loqui fas sit, potest epistula " [] " ",
      nd "tei:l" [("n", "15")] "vel potius titulo contentus esse. Epigrammata illis scri-" [] " ",
      nd "tei:l" [("n", "16")] "buntur, qui solent spectare Florales. Non intret Cato " [] " ",
      nd "tei:l" [("n", "17")] "theatrum meum, aut si intraverit, spectet. Videor mihi " [] " ",
      nd "tei:l" [("n", "18")] "meo iure facturus, si epistulam versibus clusero: " [] " ",
      nd "tei:l" [("n", "19")] "Nosses iocosae dulce cum sacrum Florae " [] " ",
      nd "tei:l" [("n", "20")] "Festosque lusus et licentiam volgi, " [] " ",
      nd "tei:l" [("n", "21")] "Cur in theatrum, Cato severe, venisti? " [] " ",
      nd "tei:l" [("n", "22")] "An ideo tantum veneras, ut exires? " [] " "] " ",
     nd "tei:div" [("type", "textpart"), ("subtype", "poem"), ("n", "1")] " " [nd "tei:head" [] "I" [] " ",
      nd "tei:l" [("n", "1")] "Hic est quem legis ille, quem requiris, " [] " ",
      nd "tei:l" [("n", "2")] "Toto notus in orbe Martialis " [] " ",
      nd "tei:l" [("n", "3")] "Argutis epigrammaton libellis: " [nd "tei:pb" [] "" [] " "] " ",
      nd "tei:l" [("n", "4")] "Cui, lector studiose, quod dedisti " [] " ",
      nd "tei:l" [("n", "5")] "Viventi decus atque sentienti, " [] " ",
      nd "tei:l" [("n", "6")] "Rari post cineres habent poetae. " [] " "] " ",
     nd "tei:div" [("type", "textpart"), ("subtype", "poem"), ("n", "2")] " " [nd "tei:head" [] "II" [] " ",
      nd "tei:l" [("n", "1")] "Qui tecum cupis esse meos ubicumque libellos " [] " ",
      nd "tei:l" [("n", "2")] "Et comites longae quaeris habere viae, " [] " ",
      nd "tei:l" [("n", "3")] "Hos eme, quos artat brevibus membrana tabellis: " [] " ",
      nd "tei:l" [("n", "4")] "Scrinia da magnis, me manus una capit. " [] " ",
      nd "tei:l" [("n", "5")] "Ne tamen ignores ubi sim venalis, et erres " [] " ",
      nd "tei:l" [("n", "6")] "Urbe vagus tota, me duce certus eris: " [] " ",
      nd "tei:l" [("n", "7")] "Libertum docti Lucensis quaere Secundum " [] " ",
      nd "tei:l" [("n", "8")] "Limina post Pacis Palladiumque forum. " [] " "] " ",
     nd "tei:div" [("type", "textpart"), ("subtype", "poem"), ("n", "3")] " " [nd "tei:head" [] "III" [] " ",
      nd "tei:l" [("n", "1")] "Argiletanas mavis habitare tabernas, " [] " ",
      nd "tei:l" [("n", "2")] "Cum tibi, parve liber, scrinia nostra vacent. " [] " ",
      nd "tei:l" [("n", "3")] "Nescis, heu, nescis dominae fastidia Romae: " [] " ",
      nd "tei:l" [("n", "4")] "Crede mihi, nimium Martia turba sapit. " [] " ",
      nd "tei:l" [("n", "5")] "Maiores nusquam rhonchi: iuvenesque senesque " [] " ",
      nd "tei:l" [("n", "6")] "Et pueri nasum rhinocerotis habent. " [] " ",
      nd "tei:l" [("n", "7")] "Audieris cum grande sophos, dum basia iactas, " [] " ",
      nd "tei:l" [("n", "8")] "Ibis " [nd "tei:note" [] "hello" [] " ab excusso missus in astra sago. "] " ",
      nd "tei:l" [("n", "9")] "Sed tu ne totiens domini patiare lituras " [] " ",
      nd "tei:l" [("n", "10")] "Neve notet lusus tristis harundo tuos, " [] " ",
      nd "tei:l" [("n", "11")] "Aetherias, lascive, cupis volitare per auras: " [] " ",
      nd "tei:l" [("n", "12")] "I, fuge; sed poteras tutior esse domi. " [] " "] " ",
     nd "tei:div" [("type", "textpart"), ("subtype", "poem"), ("n", "4")] " " [nd "tei:head" [] "IV" [] " ",
      nd "tei:l" [("n", "1")] "Contigeris nostros, Caesar, si forte libellos, " [] " ",
      nd "tei:l" [("n", "2")] "Terrarum dominum pone supercilium. " [] " ",
      nd "tei:l" [("n", "3")] "Consuevere iocos vestri quoque ferre triumphi, " [] " ",
      nd "tei:l" [("n", "4")] "Materiam dictis nec pudet esse ducem. " [] " ",
      nd "tei:l" [("n", "5")] "Qua Thymelen spectas derisoremque Latinum, " [] " ",
      nd "tei:l" [("n", "6")] "Illa fronte precor carmina nostra legas. " [] " ",
      nd "tei:l" [("n", "7")] "Innocuos censura potest permittere lusus: " [] " ",
      nd "tei:l" [("n", "8")] "Lasciva est nobis pagina, vita proba. " [nd "tei:pb" [] "" [] " "] " "] " ",
     nd "tei:div" [("type", "textpart"), ("subtype", "poem"), ("n", "5")] " " [nd "tei:head" [] "V" [] " ",
      nd "tei:l" [("n", "1")] "Do tibi naumachiam, tu das epigrammata nobis: " [] " ",
      nd "tei:l" [("n", "2")] "Vis, puto, cum libro, Marce, natare tuo. " [] " "] " ",
     nd "tei:div" [("type", "textpart"), ("subtype", "poem"), ("n", "12")] " " [nd "tei:head" [] "XII" [] " ",
      nd "tei:l" [("n", "1")] "Itur ad Herculeas gelidi qua Tiburis arces " [] " ",
      nd "tei:l" [("n", "2")] "Canaque sulphureis Albula fumat aquis, " [] " ",
      nd "tei:l" [("n", "3")] "Rura nemusque sacrum dilectaque iugera Musis " [] " ",
      nd "tei:l" [("n", "4")] "Signat vicina quartus ab urbe lapis. " [] " ",
      nd "tei:l" [("n", "5")] "Hic rudis aestivas praestabat porticus umbras, " [] " ",
      nd "tei:l" [("n", "6")] "Heu quam paene novum porticus ausa nefas! " [] " ",
      nd "tei:l" [("n", "7")] "Nam subito conlapsa ruit, cum mole sub illa " [] " ",
      nd "tei:l" [("n", "8")] "Gestatus biiugis Regulus esset equis. " [] " ",
      nd "tei:l" [("n", "9")] "Nimirum timuit nostras Fortuna querellas, " [] " ",
      nd "tei:l" [("n", "10")] "Quae par tam magnae non erat invidiae. " [] " ",
      nd "tei:l" [("n", "11")] "Nunc et damna iuvant; sunt ipsa pericula tanti: " [] " ",
      nd "tei:l" [("n", "12")] "Stantia non poterant tecta probare deos. " [] " "] " ",
     nd "tei:div" [("type", "textpart"), ("subtype", "poem"), ("n", "38")] " " [nd "tei:head" [] "XXXVIII" [] " ",
      nd "tei:l" [("n", "1")] "Quem recitas meus est, o Fidentine, libellus: " [] " ",
      nd "tei:l" [("n", "2")] "Sed male cum recitas, incipit esse tuus. " [] " "] " ",
     nd "tei:div" [("type", "textpart"), ("subtype", "poem"), ("n", "39")] " " [nd "tei:head" [] "XXXIX" [] " ",
      nd "tei:l" [("n", "1")] "Si quis erit raros inter numerandus amicos, " [] " ",
      nd "tei:l" [("n", "2")] "Quales prisca fides famaque novit anus, " [] " ",
      nd "tei:l" [("n", "3")] "Si quis Cecropiae madidus Latiaeque Minervae " [] " ",
      nd "tei:l" [("n", "4")] "Artibus et vera simplicitate bonus, " [] " ",
      nd "tei:l" [("n", "5")] "Si quis erit recti custos, mirator honesti " [] " ",
      nd "tei:l" [("n", "6")] "Et nihil arcano qui roget ore deos, " [] " ",
      nd "tei:l" [("n", "7")] "Si quis erit magnae subnixus robore mentis: " [] " ",
      nd "tei:l" [("n", "8")] "Dispeream, si non hic Decianus erit. " [nd "tei:pb" [] "" [] " "] " "] " "] " ",
    nd "tei:div" [("type", "textpart"), ("subtype", "book"), ("n", "2")] " " [nd "tei:div" [("type", "textpart"), ("subtype", "poem"), ("n", "pr")] " " [nd "tei:l" [("n", "sa")] "Valerius Martialis Deciano Suo Sal. " [] " ",
      nd "tei:l" [("n", "1")] "'Quid nobis' inquis 'cum epistula? parum enim tibi " [] " ",
      nd "tei:l" [("n", "2")] "praestamus, si legimus epigrammata? quid hic porro " [] " ",
      nd "tei:l" [("n", "3")] "dicturus es, quod non possis versibus dicere? Video " [] " ",
      nd "tei:l" [("n", "4")] "quare tragoedia aut comoedia epistulam accipiant, qui-" [] " ",
      nd "tei:l" [("n", "5")] "bus pro se loqui non licet: epigrammata curione non egent " [] " ",
      nd "tei:l" [("n", "6")] "et contenta sunt sua, id est mala, lingua: in quacumque pa-" [] " ",
      nd "tei:l" [("n", "7")] "gina visum est, epistulam faciunt. Noli ergo, si tibi videtur, " [] " ",
      nd "tei:l" [("n", "8")] "rem facere ridiculam et in toga saltantis inducere per-" [] " ",
      nd "tei:l" [("n", "9")] "sonam. Denique videris, an te delectet contra retiarium " [] " ",
      nd "tei:l" [("n", "10")] "ferula. Ego inter illos sedeo qui protinus reclamant.' " [] " ",
      nd "tei:l" [("n", "11")] "Puto me hercules, Deciane, verum dicis. Quid si scias, " [] " ",
      nd "tei:l" [("n", "12")] "cum qua et quam longa epistula negotium fueris habitu-" [] " ",
      nd "tei:l" [("n", "13")] "rus? Itaque quod exigis fiat. Debebunt tibi si qui in " [] " ",
      nd "tei:l" [("n", "14")] "hunc librum inciderint, quod ad primam paginam non " [] " ",
      nd "tei:l" [("n", "15")] "lassi pervenient. " [] " "] " ",
     nd "tei:div" [("type", "textpart"), ("subtype", "poem"), ("n", "1")] " " [nd "tei:head" [] "I" [] " ",
      nd "tei:l" [("n", "1")] "Ter centena quidem poteras epigrammata ferre, " [] " ",
      nd "tei:l" [("n", "2")] "Sed quis te ferret perlegeretque, liber? " [] " ",
      nd "tei:l" [("n", "3")] "At nunc succincti quae sint bona disce libelli. " [] " ",
      nd "tei:l" [("n", "4")] "Hoc primum est, brevior quod mihi charta perit; " [] " ",
      nd "tei:l" [("n", "5")] "Deinde, quod haec una peraget librarius hora, " [] " ",
      nd "tei:l" [("n", "6")] "Nec tantum nugis serviet ille meis; " [] " ",
      nd "tei:l" [("n", "7")] "Tertia res haec est, quod si cui forte legeris, " [] " ",
      nd "tei:l" [("n", "8")] "Sis licet usque malus, non odiosus eris. " [] " ",
      nd "tei:l" [("n", "9")] "Te conviva leget mixto quincunce, sed ante " [] " ",
      nd "tei:l" [("n", "10")] "Incipiat positus quam tepuisse calix. " [nd "tei:pb" [] "" [] " "] " ",
      nd "tei:l" [("n", "11")] "Esse tibi tanta cautus brevitate videris? " [] " ",
      nd "tei:l" [("n", "12")] "Ei mihi, quam multis sic quoque longus eris! " [] " "] " ",
     nd "tei:div" [("type", "textpart"), ("subtype", "poem"), ("n", "2")] " " [nd "tei:head" [] "II" [] " ",
      nd "tei:l" [("n", "1")] "Creta dedit magnum, maius dedit Africa nomen, " [] " ",
      nd "tei:l" [("n", "2")] "Scipio quod victor quodque Metellus habet; " [] " ",
      nd "tei:l" [("n", "3")] "Nobilius domito tribuit Germania Rheno, " [] " ",
      nd "tei:l" [("n", "4")] "Et puer hoc dignus nomine, Caesar, eras. " [] " ",
      nd "tei:l" [("n", "5")] "Frater Idumaeos meruit cum patre triumphos, " [] " ",
      nd "tei:l" [("n", "6")] "Quae datur ex Chattis laurea, tota tua est. " [] " "] " ",
     nd "tei:div" [("type", "textpart"), ("subtype", "poem"), ("n", "5")] " " [nd "tei:head" [] "V" [] " ",
      nd "tei:l" [("n", "1")] "Ne valeam, si non totis, Deciane, diebus " [] " ",
      nd "tei:l" [("n", "2")] "Et tecum totis noctibus esse velim. " [] " ",
      nd "tei:l" [("n", "3")] "Sed duo sunt quae nos disiungunt milia passum: " [] " ",
      nd "tei:l" [("n", "4")] "Quattuor haec fiunt, cum rediturus eam. " [] " ",
      nd "tei:l" [("n", "5")] "Saepe domi non es, cum sis quoque, saepe negaris: " [] " ",
      nd "tei:l" [("n", "6")] "Vel tantum causis vel tibi saepe vacas. " [] " ",
      nd "tei:l" [("n", "7")] "Te tamen ut videam, duo milia non piget ire: " [] " ",
      nd "tei:l" [("n", "8")] "Ut te non videam, quattuor ire piget. " [] " "] " ",
     nd "tei:div" [("type", "textpart"), ("subtype", "poem"), ("n", "37")] " " [nd "tei:head" [] "XXXVII" [] " ",
      nd "tei:l" [("n", "1")] "Quidquid ponitur hinc et inde verris, " [] " ",
      nd "tei:l" [("n", "2")] "Mammas suminis imbricemque porci " [] " ",
      nd "tei:l" [("n", "3")] "Communemque duobus attagenam, " [] " ",
      nd "tei:l" [("n", "4")] "Mullum dimidium lupumque totum " [] " ",
      nd "tei:l" [("n", "5")] "Muraenaeque latus femurque pulli " [] " ",
      nd "tei:l" [("n", "6")] "Stillantemque alica sua palumbum. " [] " ",
      nd "tei:l" [("n", "7")] "Haec cum condita sunt madente mappa, " [] " ",
      nd "tei:l" [("n", "8")] "Traduntur puero domum ferenda: " [] " ",
      nd "tei:l" [("n", "9")] "Nos accumbimus otiosa turba. " [] " ",
      nd "tei:l" [("n", "10")] "Ullus si pudor est, repone cenam: " [] " ",
      nd "tei:l" [("n", "11")] "Cras te, Caeciliane, non vocavi. " [] " "] " ",
     nd "tei:div" [("type", "textpart"), ("subtype", "poem"), ("n", "38")] " " [nd "tei:head" [] "XXXVIII" [] " ",
      nd "tei:l" [("n", "1")] "Quid mihi reddat ager quaeris, Line, Nomentanus? " [] " ",
      nd "tei:l" [("n", "2")] "Hoc mihi reddit ager: te, Line, non video. " [] " "] " ",
     nd "tei:div" [("type", "textpart"), ("subtype", "poem"), ("n", "39")] " " [nd "tei:head" [] "XXXIX" [] " ",
      nd "tei:l" [("n", "1")] "Coccina famosae donas et ianthina moechae: " [] " ",
      nd "tei:l" [("n", "2")] "Vis dare quae meruit munera, mitte togam. " [] " "] " ",
     nd "tei:div" [("type", "textpart"), ("subtype", "poem"), ("n", "40")] " " [nd "tei:head" [] "XL" [] " ",
      nd "tei:l" [("n", "1")] "Uri Tongilius male dicitur hemitritaeo. " [] " ",
      nd "tei:l" [("n", "2")] "Novi hominis fraudes: esurit atque sitit. " [] " ",
      nd "tei:l" [("n", "3")] "Subdola tenduntur crassis nunc retia turdis, " [] " ",
      nd "tei:l" [("n", "4")] "Hamus et in mullum mittitur atque lupum. " [nd "tei:pb" [] "" [] " "] " ",
      nd "tei:l" [("n", "5")] "Caecuba saccentur quaeque annus coxit Opimi, " [] " ",
      nd "tei:l" [("n", "6")] "Condantur parco fusca Falerna vitro. " [] " ",
      nd "tei:l" [("n", "7")] "Omnes Tongilium medici iussere lavari: " [] " ",
      nd "tei:l" [("n", "8")] "O stulti, febrem creditis esse? Gula est. " [] " "] " "] " "] " "] " "] " "] ""

/-- The text that is opened with the document: its citation scheme is read from the header. -/
def martialText : Except PyErr LocalText :=
  (findCRefPattern [] martial).map fun ls => ⟨martial, ls.filterMap CiteLevel.refsDecl, sameIdentity⟩

/-- `CtsReference(s)`, for a text that makes one. -/
def R (s : String) : Ref :=
  match mkRef s.toList with
  | .ok (some r) => r
  | _ => ⟨[], none, []⟩

def shown (r : Option Ref) : Option String := r.map fun r => String.ofList r.str
def strip (s : Str) : String := (String.ofList s).trimAscii.toString

/-- `text.getValidReff(level, reference)` on a document. -/
def reffsIn (n : Node) (level : Option Int) (r : Option String) : Except PyErr (List (Option String)) :=
  martialText.bind fun t => (getValidReff { t with root := n } level (r.map R)).map (·.map shown)
def reffs (level : Option Int) (r : Option String) : Except PyErr (List (Option String)) := reffsIn martial level r
def some' (l : List String) : Except PyErr (List (Option String)) := .ok (l.map some)
/-- `text.getTextualNode(r).export(PLAINTEXT)`. -/
def plain (r : String) : Except PyErr String :=
  martialText.bind fun t => (getTextualNode t (R r)).map fun n => String.ofList (plainText defaultJoin [] [] n)
/-- `text.getTextualNode(r, simple=True).export(PLAINTEXT)`. -/
def simpleIn (n : Node) (r : String) : Except PyErr String :=
  martialText.bind fun t => (simplePassage { t with root := n } (R r)).map fun x => String.ofList (plainText defaultJoin x.1 [] x.2)
/-- The document of `text.getTextualNode(r)`, opened as a text again. -/
def within {α : Type} (r : String) (f : Node → Except PyErr α) : Except PyErr α := martialText.bind fun t => (getTextualNode t (R r)).bind f
def siblings (r : String) : Except PyErr (Option String × Option String) :=
  martialText.bind fun t => (textPassage t (R r)).bind fun p => (p.siblingsId t).map fun s => (shown s.1, shown s.2)
def siblingsSimple (r : String) : Except PyErr (Option String × Option String) :=
  martialText.bind fun t => (simpleSiblings t (R r)).map fun s => (shown s.1, shown s.2)
def firstLast (r : String) : Except PyErr (Option String × Option String) :=
  martialText.bind fun t => (textPassage t (R r)).bind fun p => (p.firstId t).bind fun a => (p.lastId t).map fun b => (shown a, shown b)

-- testFindCitation
#guard (martialText.map fun t => t.decls.length) = .ok 3
#guard ((findCRefPattern [] martial).map fun ls => ls.map fun l => String.ofList (teiExport l)) = .ok [
  "<tei:cRefPattern n=\"book\" matchPattern=\"(\\w+)\" replacementPattern=\"#xpath(/tei:TEI/tei:text/tei:body/tei:div/tei:div[@n=\\'$1\\'])\"><tei:p>This pointer pattern extracts book</tei:p></tei:cRefPattern>",
  "<tei:cRefPattern n=\"poem\" matchPattern=\"(\\w+)\\.(\\w+)\" replacementPattern=\"#xpath(/tei:TEI/tei:text/tei:body/tei:div/tei:div[@n=\\'$1\\']/tei:div[@n=\\'$2\\'])\"><tei:p>This pointer pattern extracts poem</tei:p></tei:cRefPattern>",
  "<tei:cRefPattern n=\"line\" matchPattern=\"(\\w+)\\.(\\w+)\\.(\\w+)\" replacementPattern=\"#xpath(/tei:TEI/tei:text/tei:body/tei:div/tei:div[@n=\\'$1\\']/tei:div[@n=\\'$2\\']/tei:l[@n=\\'$3\\'])\"><tei:p>This pointer pattern extracts line</tei:p></tei:cRefPattern>"]
-- testValidReffs
#guard reffs none none = some' ["1", "2"]
#guard (reffs (some 2) none).map List.head? = .ok (some (some "1.pr"))
#guard (reffs (some 3) none).map (fun l => (l.head?, l.getLast?)) = .ok (some (some "1.pr.1"), some (some "2.40.8"))
#guard (reffs (some 3) (some "2.1")).map (fun l => (l[1]?, l.getLast?)) = .ok (some (some "2.1.2"), some (some "2.1.12"))
#guard reffs (some 3) (some "2.38-2.39") = some' ["2.38.1", "2.38.2", "2.39.1", "2.39.2"]
#guard (reffs (some 0) (some "2.1")).map List.getLast? = .ok (some (some "2.1.12"))
#guard (reffs (some 2) (some "2.1")).map List.getLast? = .ok (some (some "2.1.12"))
#guard reffs none (some "2.1-2.2") = some' ["2.1.1", "2.1.2", "2.1.3", "2.1.4", "2.1.5", "2.1.6", "2.1.7", "2.1.8", "2.1.9", "2.1.10", "2.1.11",
  "2.1.12", "2.2.1", "2.2.2", "2.2.3", "2.2.4", "2.2.5", "2.2.6"]
#guard reffs (some 2) (some "2.1-2.2") = some' ["2.1", "2.2"]
#guard reffs (some 2) (some "1.38-2.2") = some' ["1.38", "1.39", "2.pr", "2.1", "2.2"]
#guard reffs (some 3) (some "1.1.1-1.1.4") = some' ["1.1.1", "1.1.2", "1.1.3", "1.1.4"]
#guard reffs (some 3) (some "2.1.1") = .error .citationDepth
#guard reffs (some 3) (some "2.hellno") = .error .keyError
-- test_get_passage, test_get_passage_autoparse
#guard plain "1.pr.2" = .ok "tum, ut de illis queri non possit quisquis de se bene "
#guard simpleIn martial "1.pr.2" = .ok "tum, ut de illis queri non possit quisquis de se bene "
#guard plain "2.5.5" = .ok "Saepe domi non es, cum sis quoque, saepe negaris: "
#guard simpleIn martial "2.5.5" = .ok "Saepe domi non es, cum sis quoque, saepe negaris: "
-- test_get_Passage_context_no_double_slash
#guard within "1.pr.2" (fun n => simpleIn n "1.pr.2") = .ok "tum, ut de illis queri non possit quisquis de se bene "
#guard within "1.pr.2-1.pr.7" (fun n => simpleIn n "1.pr.3") = .ok "senserit, cum salva infimarum quoque personarum re-"
#guard within "1.pr.2-1.pr.7" (fun n => reffsIn n (some 3) none) = some' ["1.pr.2", "1.pr.3", "1.pr.4", "1.pr.5", "1.pr.6", "1.pr.7"]
#guard within "1.pr.2-1.1.6" (fun n => simpleIn n "1.1.6") = .ok "Rari post cineres habent poetae. "
#guard within "1.pr.2-1.1.6" (fun n => reffsIn n (some 3) none) = some' ["1.pr.2", "1.pr.3", "1.pr.4", "1.pr.5", "1.pr.6", "1.pr.7",
  "1.pr.8", "1.pr.9", "1.pr.10", "1.pr.11", "1.pr.12", "1.pr.13", "1.pr.14", "1.pr.15", "1.pr.16", "1.pr.17", "1.pr.18", "1.pr.19",
  "1.pr.20", "1.pr.21", "1.pr.22", "1.1.1", "1.1.2", "1.1.3", "1.1.4", "1.1.5", "1.1.6"]
#guard within "1.pr.2-1.2" (fun n => reffsIn n (some 3) none) = some' ["1.pr.2", "1.pr.3", "1.pr.4", "1.pr.5", "1.pr.6", "1.pr.7",
  "1.pr.8", "1.pr.9", "1.pr.10", "1.pr.11", "1.pr.12", "1.pr.13", "1.pr.14", "1.pr.15", "1.pr.16", "1.pr.17", "1.pr.18", "1.pr.19",
  "1.pr.20", "1.pr.21", "1.pr.22", "1.1.1", "1.1.2", "1.1.3", "1.1.4", "1.1.5", "1.1.6",
  "1.2.1", "1.2.2", "1.2.3", "1.2.4", "1.2.5", "1.2.6", "1.2.7", "1.2.8"]
-- test_citation_length_error
#guard plain "1.pr.2.5" = .error .citationDepth
#guard simpleIn martial "1.pr.2.5" = .error .citationDepth
-- test_nested_dict
def nested (ks : List String) : Option (NDict Str) :=
  match martialText.bind fun t => exportNested t ["tei:note".toList] with
  | .error _ => none
  | .ok d => ks.foldl (fun d k => match d with | some (.dict l) => l.lookup k.toList | _ => none) (some d)
def leafText : Option (NDict Str) → Option String
  | some (.leaf s) => some (String.ofList s)
  | _ => none
def keys : Option (NDict Str) → List String
  | some (.dict l) => l.map fun p => String.ofList p.1
  | _ => []
#guard leafText (nested ["1", "3", "8"]) = some "Ibis ab excusso missus in astra sago. "
#guard leafText (nested ["1", "pr", "1"]) = some "Spero me secutum in libellis meis tale temperamen-"
#guard leafText (nested ["1", "12", "1"]) = some "Itur ad Herculeas gelidi qua Tiburis arces "
#guard leafText (nested ["2", "pr", "1"]) = some "'Quid nobis' inquis 'cum epistula? parum enim tibi "
#guard [keys (nested []), (keys (nested ["1"])).take 3, (keys (nested ["2", "pr"])).take 3] = [["1", "2"], ["pr", "1", "2"], ["sa", "1", "2"]]
-- test_next, test_prev: passages and simple passages
#guard ["1.pr.1", "1.pr.22", "1.39.8", "2.40.8", "2.40", "2"].map (fun r => (siblings r).map Prod.snd) =
  [.ok (some "1.pr.2"), .ok (some "1.1.1"), .ok (some "2.pr.sa"), .ok none, .ok none, .ok none]
#guard ["2.40.8", "2.40", "2", "1.pr.1", "1.pr", "1", "1.1.1", "2.pr.sa"].map (fun r => (siblings r).map Prod.fst) =
  [.ok (some "2.40.7"), .ok (some "2.39"), .ok (some "1"), .ok none, .ok none, .ok none, .ok (some "1.pr.22"), .ok (some "1.39.8")]
#guard ["1.pr.1", "1.pr.22", "1.39.8", "2.40.8", "2.40", "2", "1.1.1", "2.pr.sa"].all fun r => siblings r = siblingsSimple r
-- CapitainsXMLRangePassageTests
#guard siblings "1.pr.2-1.2" = .error .invalidSibling
#guard siblings "1.pr.1-1.2.1" = .ok (none, some "1.2.2-1.5.2")
#guard siblings "1.pr.10-1.2.1" = .ok (some "1.pr.1-1.pr.9", some "1.2.2-1.4.1")
#guard siblings "2.39.2-2.40.8" = .ok (some "2.37.6-2.39.1", none)
#guard siblings "2.39.2-2.40.5" = .ok (some "2.37.9-2.39.1", some "2.40.6-2.40.8")
#guard siblings "1.pr.5-1.pr.6" = .ok (some "1.pr.3-1.pr.4", some "1.pr.7-1.pr.8")
#guard siblings "1.pr.5" = .ok (some "1.pr.4", some "1.pr.6")
#guard siblings "1.pr" = .ok (none, some "1.1")
#guard siblings "2.40" = .ok (some "2.39", none)
#guard firstLast "2.39" = .ok (some "2.39.1", some "2.39.2")
#guard firstLast "2.39-2.40" = .ok (some "2.39.1", some "2.40.8")
#guard firstLast "1.1" = .ok (some "1.1.1", some "1.1.6")
#guard firstLast "1.pr.1" = .ok (none, none)

end Verif.Tests
