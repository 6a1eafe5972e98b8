import Verif.Rle.Props
import Verif.Workspace.Props
import Verif.Planning.Props
import Verif.CSpace.Props
import Verif.Rrt.Props
import Verif.Trajectory.Props
import Verif.Shortcut.Props
import Verif.Threads.Props
import Verif.Collision.Props
import Verif.Kin.Props
import Verif.Attach.Props
import Verif.Scene.Props
import Verif.Grasp.Props
import Verif.Env.Props
import Verif.Voxel.Props
import Verif.Pqp.Props
import Verif.Pqp.DistProps
import Verif.Eef.Props
import Verif.Jac.Props
import Verif.Jac.ComProps
import Verif.Inv.Props
import Verif.Inv.StepProps
import Verif.Ik.Props
import Verif.Ik.StepProps
import Verif.Ik.GenericProps
import Verif.Wsr.Props
import Verif.Wsr.RecProps
import Verif.Wsr.QueryProps
import Verif.Wsr.CutProps
import Verif.Wsf.Props
import Verif.Hull.Props
import Verif.Rot.RpyProps
import Verif.Rot.QuatProps
import Verif.Rot.HopfProps
import Verif.Rot.PlaneProps
import Verif.Rot.MeanProps
import Verif.Mth.AngleProps
import Verif.Mth.PoseProps
import Verif.Mth.VecProps
import Verif.Mth.LineProps
import Verif.Mth.PlaneProps
import Verif.Mth.CurveProps
import Verif.Mth.OriProps
import Verif.Mc.CacheProps
import Verif.Mc.CellProps
import Verif.Mc.SurfaceProps
import Verif.Mc.SearchProps
import Verif.Mc.CalcProps
import Verif.Bz.BitProps
import Verif.Bz.RleProps
import Verif.Bz.BwtProps
import Verif.Bz.MtfProps
import Verif.Bz.HuffProps
import Verif.Bz.CodeProps
import Verif.Bz.BlockProps
import Verif.Bz.StreamProps
import Verif.Bz.SafeProps
import Verif.Bz.CrcProps
import Verif.Krn.KernelProps
import Verif.Krn.SurfaceProps
import Verif.Grv.Props
import Verif.Cst.CheckProps
import Verif.Cst.GradProps
import Verif.Cst.WrongProps
import Verif.Cst.SolveProps
import Verif.Cst.StepsProps
import Verif.Gpl.ContactProps
import Verif.Gpl.ConeProps
import Verif.Gpl.ClosureProps
import Verif.Gpl.QualityProps
import Verif.Gpl.HistoryProps
import Verif.Gpn.ApproachProps
import Verif.Gpn.PlannerProps
import Verif.Gpn.UncertainProps
import Verif.Gpn.EvalProps
import Verif.Wsg.GridProps
import Verif.Wsg.MergeProps
import Verif.Msh.BoxProps
import Verif.Msh.MeshProps
import Verif.Msh.MergeProps
import Verif.Msh.NormalProps
import Verif.Msh.OrientProps
import Verif.Msh.MeasureProps
import Verif.Tot.SegProps
import Verif.Tot.PathProps
import Verif.Tot.SmoothProps
import Verif.Tot.LimitProps
import Verif.Tot.GenProps
import Verif.Tot.QueryProps
import Verif.Tot.CornerProps
import Verif.Rio.UnitProps
import Verif.Rio.TransformProps
import Verif.Rio.LimitProps
import Verif.Rio.QuantityProps
import Verif.Rio.ListProps
import Verif.Rio.StructProps
import Verif.Rfc.RerootProps
import Verif.Rfc.ChainProps
import Verif.Rfc.CopyProps
import Verif.Rfc.SubSetProps
import Verif.Stl.StlProps
import Verif.Mjc.BuildProps
import Verif.Mjc.SanitizeProps
import Verif.Mjc.NameProps
import Verif.Mjc.ScaleProps
import Verif.Ctl.CtlProps
import Verif.Hst.HstProps
import Verif.Clr.ClrProps
import Verif.Sph.SphProps
import Verif.Sph.ApproachProps
import Verif.Dyn.DynProps
import Verif.Dyn.ActProps
import Verif.Rrt.IkProps
import Verif.Band.Props
import Verif.Mnp.Props
import Verif.Mnp.ExtProps
import Verif.Mnp.MapProps
import Verif.Lnk.Props
import Verif.Stb.Props
import Verif.Stb.LoopProps
import Verif.Rfn.Props
import Verif.Gaz.Props
import Verif.Rfn.HullProps
import Verif.Lgr.Props
