import Verif.Props.Util
import Verif.Props.Tlp
import Verif.Props.TlpPack
import Verif.Props.MemOps
import Verif.Props.Cap
import Verif.Props.Config
import Verif.Props.Routing
import Verif.Props.Bridge
import Verif.Props.Device
import Verif.Props.Tags
import Verif.Props.Enum
import Verif.Props.Parity
import Verif.Props.Us
import Verif.Props.Psdp
import Verif.Props.PcieIf
import Verif.Props.Arbiter
import Verif.Props.Counters
import Verif.Props.ArbMux
import Verif.Props.RamDemuxRd
import Verif.Props.RamDemuxWr
import Verif.Props.DmaPsdpRam
import Verif.Props.DmaPsdpRamAsync
import Verif.Props.IrqRateLimit
import Verif.Props.Msix
import Verif.Props.MsixAxil
import Verif.Props.DmaIfPcieWr
import Verif.Props.AxisDemux
import Verif.Props.Msi
import Verif.Props.DmaClientSource
import Verif.Props.DmaClientSink
import Verif.Props.DmaIfPcieRd
import Verif.Props.DmaIfPcieRdCpl
import Verif.Props.DmaIfPcieRdWrite
import Verif.Props.DmaIfPcieRdStatus
import Verif.Props.DmaIfPcieRdCopy
import Verif.Props.AxilMin
import Verif.Props.AxiMasterWr
import Verif.Props.AxiMasterRd
import Verif.Props.TlpDemux
import Verif.Props.TlpFifo
import Verif.Props.TlpFifoSeg
import Verif.Props.TlpDemuxFifo
import Verif.Props.TlpMux
import Verif.Props.UsCfg
import Verif.Props.CfgMonitor
import Verif.Props.AxiMaster
import Verif.Props.UsIfRx
import Verif.Props.UsIfTx
import Verif.Props.DmaIfMux
import Verif.Props.PtileIfRx
import Verif.Props.S10IfRx
import Verif.Props.TlpFifoMux
import Verif.Props.PtileIfTx
