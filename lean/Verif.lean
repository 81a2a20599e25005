import Verif.Bool.Props
import Verif.CTable.Props
import Verif.CTable.BuildProps
import Verif.Geom.QuadricProps
import Verif.Box.SplitProps
import Verif.Box.MyBoxProps
import Verif.Reg.Props
import Verif.Geom.SurfProps
import Verif.Geom.CardProps
import Verif.Geom.SignProps
import Verif.Void.Props
import Verif.Void.BoundProps
import Verif.Void.LoopProps
import Verif.Misc.DensityProps
import Verif.Misc.PlanesProps
import Verif.Misc.RangeProps
import Verif.Misc.ExportProps
import Verif.Misc.EnclProps
import Verif.Misc.LabelsProps
import Verif.Write.SignsProps
import Verif.Misc.ConesProps
import Verif.Text.Props
import Verif.Text.WrapProps
import Verif.Text.CharProps
import Verif.Alias.Props
import Verif.Void.BoxObjsProps
import Verif.Conv.CellProps
import Verif.Misc.AssignProps
import Verif.Rev.HashProps
import Verif.Rev.SelectProps
import Verif.Rev.LevelsProps
import Verif.Rev.BuildProps
import Verif.Rev.CardsProps
import Verif.Rev.AgainProps
import Verif.Conv.ConesProps
import Verif.RSurf.Spec
import Verif.RSurf.Model
import Verif.RSurf.Lemmas
import Verif.RSurf.CardLemmas
import Verif.RSurf.CardLemmas2
import Verif.RSurf.TrLemmas
import Verif.RSurf.LoopLemmas
import Verif.RSurf.Props
import Verif.RSurf.Props2
import Verif.RSurf.QuadSpec
import Verif.RSurf.Quad
import Verif.RSurf.QuadLemmas
import Verif.RSurf.QuadLemmas2
import Verif.RSurf.QuadLemmas3
import Verif.RSurf.QuadProps
import Verif.RSurf.QuadProps2
import Verif.RSurf.QuadExists
import Verif.RSurf.XmlSpec
import Verif.RSurf.Xml
import Verif.RSurf.XmlLemmas
import Verif.RSurf.XmlProps
import Verif.RSurf.Round
import Verif.RSurf.RoundLemmas
import Verif.RSurf.RoundProps
import Verif.Rev.SolidSpec
import Verif.Rev.Solid
import Verif.Rev.SolidLemmas
import Verif.Rev.SolidLemmas2
import Verif.Rev.SolidLemmas3
import Verif.Rev.SolidLemmas4
import Verif.Rev.SolidLemmas5
import Verif.Rev.SolidLemmas6
import Verif.Rev.SolidProps
import Verif.BB.Spec
import Verif.BB.Model
import Verif.BB.Lemmas
import Verif.BB.Lemmas2
import Verif.BB.Lemmas3
import Verif.BB.Lemmas4
import Verif.BB.Lemmas5
import Verif.BB.Lemmas6
import Verif.BB.Props
import Verif.Card.Spec
import Verif.Card.Model
import Verif.Card.Lemmas
import Verif.Card.Lemmas2
import Verif.Card.Lemmas3
import Verif.Card.Props
import Verif.Card.Props2
import Verif.CellText.Spec
import Verif.CellText.Model
import Verif.CellText.Lemmas
import Verif.CellText.Lemmas2
import Verif.CellText.Lemmas3
import Verif.CellText.Lemmas4
import Verif.CellText.Lemmas5
import Verif.CellText.Props
import Verif.CellText.Props2
import Verif.SurfText.Spec
import Verif.SurfText.Model
import Verif.SurfText.Lemmas
import Verif.SurfText.Lemmas2
import Verif.SurfText.Lemmas3
import Verif.SurfText.Props
import Verif.SurfText.Props2
import Verif.Decom.Model
import Verif.Decom.BopLemmas
import Verif.Decom.BopProps
import Verif.Decom.Lemmas
import Verif.Decom.Spec
import Verif.Decom.CountLemmas
import Verif.Decom.Props
import Verif.Decom.ErrLemmas
import Verif.Decom.Props2
import Verif.Decom.EndLemmas
import Verif.Decom.Props3
import Verif.Face.Model
import Verif.Face.Lemmas
import Verif.Face.Props
import Verif.Face.GroupLemmas
import Verif.Face.GroupProps
import Verif.Face.RangeModel
import Verif.Face.RangeLemmas
import Verif.Face.RangeProps
import Verif.Face.IntervalModel
import Verif.Face.NodeLemmas
import Verif.Face.IntervalLemmas
import Verif.Face.IntervalProps
import Verif.Face.BoundaryProps
import Verif.Face.TorusModel
import Verif.Face.TorusLemmas
import Verif.Face.TorusUProps
import Verif.Face.TorusVProps
import Verif.Face.ChordModel
import Verif.Face.ChordProps
import Verif.Load.Model
import Verif.Load.Spec
import Verif.Load.TextLemmas
import Verif.Load.Lemmas
import Verif.Load.Loop
import Verif.Load.Join
import Verif.Load.Cad
import Verif.Load.Words
import Verif.Load.Props
import Verif.Load.Files
import Verif.Load.FilesLemmas
import Verif.Load.FilesProps
import Verif.Conf.Model
import Verif.Conf.Props
import Verif.Text.RoomSpec
import Verif.Text.RoomLemmas
import Verif.Text.RoomProps
import Verif.McnpFile.Model
import Verif.McnpFile.Spec
import Verif.McnpFile.Good
import Verif.McnpFile.Lemmas
import Verif.McnpFile.DefLemmas
import Verif.McnpFile.LineLemmas
import Verif.McnpFile.CellLemmas
import Verif.McnpFile.SurfLemmas
import Verif.McnpFile.DataLemmas
import Verif.McnpFile.FileLemmas
import Verif.McnpFile.Props
import Verif.McnpFile.Props2
import Verif.McnpFile.ReadProps
import Verif.McnpFile.ReadProps2
import Verif.OmcFile.Model
import Verif.OmcFile.XmlSpec
import Verif.OmcFile.Lemmas
import Verif.OmcFile.Lemmas2
import Verif.OmcFile.Props
import Verif.OmcFile.Read
import Verif.OmcFile.ReadSpec
import Verif.OmcFile.ReadLemmas
import Verif.OmcFile.ReadProps
import Verif.OmcFile.PySpec
import Verif.OmcFile.PyLemmas
import Verif.OmcFile.PyLemmas2
import Verif.OmcFile.PyLemmas3
import Verif.OmcFile.PyLemmas4
import Verif.OmcFile.PyLemmas5
import Verif.OmcFile.PyProps
import Verif.SerpFile.Model
import Verif.SerpFile.Spec
import Verif.SerpFile.Lemmas
import Verif.SerpFile.Lemmas2
import Verif.SerpFile.Props
import Verif.SerpFile.Props2
import Verif.PhitsFile.Model
import Verif.PhitsFile.Spec
import Verif.PhitsFile.Good
import Verif.PhitsFile.Lemmas
import Verif.PhitsFile.CellLemmas
import Verif.PhitsFile.InnerLemmas
import Verif.PhitsFile.OutLemmas
import Verif.PhitsFile.FileLemmas
import Verif.PhitsFile.UniSpec
import Verif.PhitsFile.UniLemmas
import Verif.PhitsFile.Props
import Verif.PhitsFile.Props2
import Verif.Session.Model
import Verif.Session.Spec
import Verif.Session.Lemmas
import Verif.Session.Lemmas2
import Verif.Session.Props
import Verif.Session.AgainLemmas
import Verif.Session.AgainProps
import Verif.Session.Props2
import Verif.RBool.Model
import Verif.RBool.Spec
import Verif.RBool.Lemmas
import Verif.RBool.Props
import Verif.Poly.Spec
import Verif.Poly.Model
import Verif.Poly.Lemmas
import Verif.Poly.Lemmas2
import Verif.Poly.Lemmas3
import Verif.Poly.Lemmas4
import Verif.Poly.Lemmas5
import Verif.Poly.Lemmas6
import Verif.Poly.Lemmas7
import Verif.Poly.Lemmas8
import Verif.Poly.Props
import Verif.Shape.Spec
import Verif.Shape.Model
import Verif.Shape.Lemmas
import Verif.Shape.Lemmas2
import Verif.Shape.Lemmas3
import Verif.Shape.Props
import Verif.Facet.Props
import Verif.Driver.Props
import Verif.Nest.Props2
import Verif.Whole.Full
import Verif.Whole.EnclExample
import Verif.Whole.Long
import Verif.RCore.NameProps
import Verif.RCore.SetProps
import Verif.RCore.TreeProps
import Verif.Setup.Props
import Verif.Whole.BackProps
import Verif.RCore.CliProps
import Verif.Rev.RenumProps
import Verif.Rev.RenumTokens
import Verif.Driver.Kept
