import Verif.Props.Base128
import Verif.Props.Endian
import Verif.Props.BitField
import Verif.Props.Flags
import Verif.Props.Crypt
import Verif.Props.Jenkins
import Verif.Props.StringView
import Verif.Props.FileInfo
import Verif.Props.Stream
import Verif.Props.Supercore
import Verif.Props.ReflectorNum
import Verif.Props.ReflectorText
import Verif.Props.ReflectorFlags
import Verif.Props.ReflectorBits
import Verif.Props.ReflectorFrame
import Verif.Props.ReflectorFrame2
import Verif.Props.ReflectorArray
import Verif.Props.EnumReg
import Verif.Props.ReflBin
import Verif.Props.Threads
import Verif.Props.Alloc
import Verif.Props.Pointer
import Verif.Props.DirScan
import Verif.Props.VirtualIter
import Verif.Props.Wave
import Verif.Props.Printer
import Verif.Props.Morton
import Verif.Props.Dds
import Verif.Props.BlockDecoder
import Verif.Props.Zip
import Verif.Props.EsFloat
import Verif.Props.UniFormat
import Verif.Props.UniNorm
import Verif.Props.Vectors
import Verif.Props.Matrix
import Verif.Props.ReflIO
import Verif.Props.Blowfish
import Verif.Props.Lookup3
import Verif.Props.ReflectorSub
import Verif.Props.ReflXmlLoad
import Verif.Props.ReflXmlLoad2
import Verif.Props.ReflXml2Ex
import Verif.Props.ReflReg3
import Verif.Props.Mkdirs
import Verif.Props.Except
import Verif.Props.ZipRec
import Verif.Props.Unicode
import Verif.Props.PyList
import Verif.Props.Settings
import Verif.Props.BlowfishPi
import Verif.Props.BlockColours
import Verif.Props.UniClose
import Verif.Props.PyScene
import Verif.Props.HkPreset
import Verif.Props.Pugiex
import Verif.Props.BinFile
import Verif.Props.UnitTest
import Verif.Props.Element
import Verif.Props.PrinterColour
import Verif.Props.Max
import Verif.Props.BC5Blue
import Verif.Props.DdsFormats
import Verif.Props.Float32Special
import Verif.Props.BlockSimd
import Verif.Props.FloatVec
import Verif.Props.FloatNorm
import Verif.Props.FloatEq
import Verif.Props.FloatMat
import Verif.Props.UniFloat
import Verif.Props.SceneIter
import Verif.Props.VectorText
import Verif.Props.Rts
import Verif.Props.StringViewMem
import Verif.Props.FloatText
import Verif.Props.FloatPrint
import Verif.Props.FloatSpecial
import Verif.Props.TypeRegistry
import Verif.Props.PrinterWin
import Verif.Props.UnitTestRun
import Verif.Props.FractionT
import Verif.Props.ReflBinFrame
import Verif.Props.ReflXml2Load
import Verif.Props.ZipSound
import Verif.Props.ZipConc
import Verif.Props.IntVec
import Verif.Props.DirScanWin
import Verif.Props.TChar
import Verif.Props.ZipFile
import Verif.Props.ReflIOCheck
import Verif.Props.PyLife
import Verif.Props.FloatQuat
import Verif.Props.FloatToQuat
import Verif.Props.FloatDecompose
import Verif.Props.FloatInverse
import Verif.Props.VectorTextFloat
import Verif.Props.XmlError
import Verif.Props.FloatXmlRound
import Verif.Props.PyInit
