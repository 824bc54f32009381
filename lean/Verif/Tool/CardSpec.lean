/-
The description of the Intel 82599 network card: /repo/tool/klint/fullstack/spec_reg.py:30-1601 and
/repo/tool/klint/fullstack/spec_act.py:4-585, whole; /repo/tool/klint/externals/os/pci.py:26-45; and the accesses
to the card of /repo/env/src/net/tinynf/ixgbe.c as the tool sees them, one by one.
-/
import Verif.Tool.Registers
import Verif.Env.IxgbeDevice
import Verif.Env.IxgbeSetup

set_option autoImplicit false

namespace Verif.Tool.CardSpec
open Verif.Tool.Registers
open Verif.IxgbeRegs (bit bits)

/-- spec_reg.py:30-1433 `registers`, after `validate_registers`; the numbers are the lines where the registers begin. -/
def registers : Table := [
  /- 34 -/ ("CTRL", ⟨[(0x0, 0x0, 0)], 32, .rw,
    [⟨"PCIe Master Disable", 2, 2, some 0x0, .rw⟩,
     ⟨"LRST", 3, 3, some 0x0, .rw⟩,
     ⟨"RST", 26, 26, some 0x0, .rw⟩]⟩),
  /- 56 -/ ("STATUS", ⟨[(0x8, 0x0, 0)], 32, .ro,
    [⟨"LAN ID", 2, 3, some 0x0, .ro⟩,
     ⟨"LinkUp", 7, 7, some 0x0, .rw⟩,
     ⟨"Num VFs", 26, 26, some 0x0, .ro⟩,
     ⟨"IOV Active", 18, 18, some 0x0, .ro⟩,
     ⟨"PCIe Master Enable Status", 19, 19, some 0x1, .ro⟩]⟩),
  /- 86 -/ ("EIMC_0", ⟨[(0x888, 0x0, 0)], 32, .rw,
    [⟨"Interrupt Mask", 0, 30, some 0x0, .rw⟩]⟩),
  /- 102 -/ ("EIMC_1", ⟨[(0xab0, 0x0, 0)], 32, .rw,
    [⟨"Interrupt Mask", 0, 31, some 0x0, .rw⟩]⟩),
  /- 118 -/ ("EIMC_2", ⟨[(0xab4, 0x0, 0)], 32, .rw,
    [⟨"Interrupt Mask", 0, 31, some 0x0, .rw⟩]⟩),
  /- 134 -/ ("FCRTH", ⟨[(0x3260, 0x4, 7)], 32, .rw,
    [⟨"RTH", 5, 18, some 0x0, .rw⟩,
     ⟨"FCEN", 31, 31, some 0x0, .rw⟩]⟩),
  /- 155 -/ ("FWSM", ⟨[(0x10148, 0x0, 0)], 32, .rw,
    [⟨"FWSMBI", 0, 0, some 0x0, .rw⟩,
     ⟨"FW_mode", 1, 3, some 0x0, .rw⟩,
     ⟨"EEP_reload_ind", 6, 6, some 0x0, .rw⟩,
     ⟨"FW_Val_bit", 15, 15, some 0x0, .rw⟩,
     ⟨"Reset_cnt", 16, 18, some 0x0, .rw⟩,
     ⟨"Ext_err_ind", 19, 24, some 0x0, .rw⟩,
     ⟨"PCIe_config_err_ind", 25, 25, some 0x0, .rw⟩,
     ⟨"PHY_SERDES0_config_err_ind", 26, 26, some 0x0, .rw⟩,
     ⟨"PHY_SERDES1_config_err_ind", 27, 27, some 0x0, .rw⟩]⟩),
  /- 202 -/ ("RXPBSIZE", ⟨[(0x3c00, 0x4, 7)], 32, .rw,
    [⟨"SIZE", 10, 19, some 0x200, .rw⟩]⟩),
  /- 215 -/ ("EEC", ⟨[(0x10010, 0x0, 0)], 32, .rw,
    [⟨"EE_SK", 0, 0, some 0x0, .rw⟩,
     ⟨"EE_CS", 1, 1, some 0x0, .rw⟩,
     ⟨"EE_DI", 2, 2, some 0x0, .rw⟩,
     ⟨"EE_DO", 3, 3, none, .ro⟩,
     ⟨"FWE", 4, 4, some 0x1, .rw⟩,
     ⟨"EE_REQ", 6, 6, some 0x0, .rw⟩,
     ⟨"EE_GNT", 7, 7, some 0x0, .ro⟩,
     ⟨"EE_PRES", 8, 8, none, .ro⟩,
     ⟨"Auto_RD", 9, 9, some 0x0, .rw⟩,
     ⟨"EE_Size", 11, 14, some 0x2, .ro⟩,
     ⟨"PCI_ANA_done", 15, 15, some 0x0, .ro⟩,
     ⟨"PCI_Core_done", 16, 16, some 0x0, .ro⟩,
     ⟨"PCI_general_done", 17, 17, some 0x0, .ro⟩,
     ⟨"PCI_FUNC_DONE", 18, 18, some 0x0, .ro⟩,
     ⟨"CORE_DONE", 19, 19, some 0x0, .ro⟩,
     ⟨"CORE_CSR_DONE", 20, 20, some 0x0, .ro⟩,
     ⟨"MAC_DONE", 21, 21, some 0x0, .ro⟩]⟩),
  /- 307 -/ ("RDRXCTL", ⟨[(0x2f00, 0x0, 0)], 32, .rw,
    [⟨"CRCStrip", 1, 1, some 0x0, .rw⟩,
     ⟨"DMAIDONE", 3, 3, some 0x0, .ro⟩,
     ⟨"RSCFRSTSIZE", 17, 21, some 0x8, .rw⟩,
     ⟨"RSCACKC", 25, 25, some 0x0, .rw⟩,
     ⟨"FCOE_WRFIX", 26, 26, some 0x0, .rw⟩]⟩),
  /- 344 -/ ("PFUTA", ⟨[(0xf400, 0x4, 127)], 32, .rw,
    [⟨"Bit Vector", 0, 31, none, .rw⟩]⟩),
  /- 357 -/ ("PFVLVF", ⟨[(0xf100, 0x4, 63)], 32, .rw,
    [⟨"VLAN_Id", 0, 11, none, .rw⟩,
     ⟨"VI_En", 31, 31, none, .rw⟩]⟩),
  /- 375 -/ ("MPSAR", ⟨[(0xa600, 0x4, 255)], 32, .rw,
    [⟨"POOL_ENA", 0, 31, none, .rw⟩]⟩),
  /- 390 -/ ("PFVLVFB", ⟨[(0xf200, 0x4, 127)], 32, .rw,
    [⟨"POOL_ENA", 0, 31, none, .rw⟩]⟩),
  /- 405 -/ ("MTA", ⟨[(0x5200, 0x4, 127)], 32, .rw,
    [⟨"Bit Vector", 0, 31, none, .rw⟩]⟩),
  /- 420 -/ ("MFLCN", ⟨[(0x4294, 0x0, 0)], 32, .rw,
    [⟨"PMCF", 0, 0, some 0x0, .rw⟩,
     ⟨"DPF", 1, 1, some 0x0, .rw⟩,
     ⟨"RPFCE", 2, 2, some 0x0, .rw⟩,
     ⟨"RFCE", 3, 3, some 0x0, .rw⟩]⟩),
  /- 445 -/ ("FCCFG", ⟨[(0x3d00, 0x0, 0)], 32, .rw,
    [⟨"TFCE", 3, 4, some 0x0, .rw⟩]⟩),
  /- 458 -/ ("RTTDQSEL", ⟨[(0x4904, 0x0, 0)], 32, .rw,
    [⟨"TXDQ_IDX", 0, 6, some 0x0, .rw⟩]⟩),
  /- 471 -/ ("RTTDT1C", ⟨[(0x4908, 0x0, 0)], 32, .rw,
    [⟨"CRQ", 0, 13, none, .rw⟩]⟩),
  /- 484 -/ ("FTQF", ⟨[(0xe600, 0x4, 127)], 32, .rw,
    [⟨"Protocol", 0, 1, none, .rw⟩,
     ⟨"Priority", 2, 4, none, .rw⟩,
     ⟨"Pool", 8, 13, none, .rw⟩,
     ⟨"Mask", 25, 29, none, .rw⟩,
     ⟨"Pool Mast", 30, 30, none, .rw⟩,
     ⟨"Queue Enable", 31, 31, none, .rw⟩]⟩),
  /- 520 -/ ("RTTDCS", ⟨[(0x4900, 0x0, 0)], 32, .rw,
    [⟨"TDPAC", 0, 0, some 0x0, .rw⟩,
     ⟨"VMPAC", 1, 1, some 0x0, .rw⟩,
     ⟨"TDRM", 4, 4, some 0x0, .rw⟩,
     ⟨"ARBDIS", 6, 6, some 0x0, .rw⟩,
     ⟨"LTTDESC", 17, 19, some 0x0, .ro⟩,
     ⟨"BDPM", 22, 22, some 0x1, .rw⟩,
     ⟨"BPBFSM", 23, 23, some 0x1, .rw⟩,
     ⟨"SPEED_CHG", 31, 31, some 0x0, .rw⟩]⟩),
  /- 561 -/ ("TXPBSIZE", ⟨[(0xcc00, 0x4, 7)], 32, .rw,
    [⟨"SIZE", 10, 19, some 0xa0, .rw⟩]⟩),
  /- 574 -/ ("DTXMXSZRQ", ⟨[(0x8100, 0x0, 0)], 32, .rw,
    [⟨"Max_bytes_num_req", 0, 11, some 0x10, .rw⟩]⟩),
  /- 587 -/ ("TXPBTHRESH", ⟨[(0x4950, 0x4, 7)], 32, .rw,
    [⟨"THRESH", 0, 9, none, .rw⟩]⟩),
  /- 600 -/ ("MTQC", ⟨[(0x8120, 0x0, 0)], 32, .rw,
    [⟨"RT_Ena", 0, 0, some 0x0, .rw⟩,
     ⟨"VT_Ena", 1, 1, some 0x0, .rw⟩,
     ⟨"NUM_TC_OR_Q", 2, 3, some 0x0, .rw⟩]⟩),
  /- 622 -/ ("HLREG0", ⟨[(0x4240, 0x0, 0)], 32, .rw,
    [⟨"TXCRCEN", 0, 0, some 0x1, .rw⟩,
     ⟨"RXCRCSTRP", 1, 1, some 0x1, .rw⟩,
     ⟨"JUMBOEN", 2, 2, some 0x0, .rw⟩,
     ⟨"Reserved", 3, 9, some 0x1, .rw⟩,
     ⟨"TXPADEN", 10, 10, some 0x1, .rw⟩,
     ⟨"LPBK", 15, 15, some 0x0, .rw⟩,
     ⟨"MDCSPD", 16, 16, some 0x1, .rw⟩,
     ⟨"CONTMDC", 17, 17, some 0x0, .rw⟩,
     ⟨"PREPEND", 20, 23, some 0x0, .rw⟩]⟩),
  /- 670 -/ ("GRC_EXT", ⟨[(0x11050, 0x0, 0)], 32, .rw,
    [⟨"VT_Mode", 0, 1, some 0x0, .rw⟩,
     ⟨"APBACD", 4, 4, some 0x0, .rw⟩,
     ⟨"Buffers_Clear_Func", 30, 30, some 0x0, .rw⟩]⟩),
  /- 691 -/ ("RXMEMWRAP", ⟨[(0x3190, 0x0, 0)], 32, .ro,
    [⟨"TC0Wrap", 0, 2, some 0x0, .ro⟩,
     ⟨"TC0Empty", 3, 3, some 0x1, .ro⟩,
     ⟨"T10Wrap", 4, 6, some 0x0, .ro⟩,
     ⟨"TC1Empty", 7, 7, some 0x1, .ro⟩,
     ⟨"TC2Wrap", 8, 10, some 0x0, .ro⟩,
     ⟨"TC2Empty", 11, 11, some 0x1, .ro⟩,
     ⟨"TC3Wrap", 12, 14, some 0x0, .ro⟩,
     ⟨"TC3Empty", 15, 15, some 0x1, .ro⟩,
     ⟨"TC4Wrap", 16, 18, some 0x0, .ro⟩,
     ⟨"TC4Empty", 19, 19, some 0x1, .ro⟩,
     ⟨"TC5Wrap", 20, 22, some 0x0, .ro⟩,
     ⟨"TC5Empty", 23, 23, some 0x1, .ro⟩,
     ⟨"TC6Wrap", 24, 26, some 0x0, .ro⟩,
     ⟨"TC6Empty", 27, 27, some 0x1, .ro⟩,
     ⟨"TC7Wrap", 28, 30, some 0x0, .ro⟩,
     ⟨"TC7Empty", 31, 31, some 0x1, .ro⟩]⟩),
  /- 774 -/ ("TDBAL", ⟨[(0x6000, 0x40, 127)], 32, .rw,
    [⟨"0", 0, 6, some 0x0, .iw⟩,
     ⟨"TDBAL", 7, 31, none, .rw⟩]⟩),
  /- 794 -/ ("TDBAH", ⟨[(0x6004, 0x40, 127)], 32, .rw,
    [⟨"TDBAH", 0, 31, none, .rw⟩]⟩),
  /- 808 -/ ("TDLEN", ⟨[(0x6008, 0x40, 127)], 32, .rw,
    [⟨"LEN", 0, 19, some 0x0, .rw⟩]⟩),
  /- 826 -/ ("TXDCTL", ⟨[(0x6028, 0x40, 127)], 32, .rw,
    [⟨"PTHRESH", 0, 6, some 0x0, .rw⟩,
     ⟨"HTHRESH", 8, 14, some 0x0, .rw⟩,
     ⟨"WTHRESH", 16, 22, some 0x0, .rw⟩,
     ⟨"ENABLE", 25, 25, some 0x0, .rw⟩,
     ⟨"SWFLSH", 26, 26, some 0x0, .rw⟩]⟩),
  /- 869 -/ ("TDWBAL", ⟨[(0x6038, 0x40, 127)], 32, .rw,
    [⟨"Head_WB_En", 0, 0, some 0x0, .rw⟩,
     ⟨"HeadWB_Low", 2, 31, some 0x0, .rw⟩]⟩),
  /- 889 -/ ("TDWBAH", ⟨[(0x603c, 0x40, 127)], 32, .rw,
    [⟨"HeadWB_High", 0, 31, some 0x0, .rw⟩]⟩),
  /- 902 -/ ("DCA_TXCTRL", ⟨[(0x600c, 0x40, 127)], 32, .rw,
    [⟨"Tx Descriptor DCA EN", 5, 5, some 0x0, .rw⟩,
     ⟨"TXdescRDROEn", 9, 9, some 0x1, .rw⟩,
     ⟨"TXdescWBROen", 11, 11, some 0x1, .rw⟩,
     ⟨"TXDataReadROEn", 13, 13, some 0x1, .rw⟩,
     ⟨"CPUID", 24, 31, some 0x0, .rw⟩]⟩),
  /- 935 -/ ("DMATXCTL", ⟨[(0x4a80, 0x0, 0)], 32, .rw,
    [⟨"TE", 0, 0, some 0x0, .rw⟩,
     ⟨"GDV", 3, 3, some 0x0, .rw⟩,
     ⟨"VT", 16, 31, some 0x8100, .rw⟩]⟩),
  /- 963 -/ ("RDBAL", ⟨[(0x1000, 0x40, 63), (0xd000, 0x40, 127)], 32, .rw,
    [⟨"0", 0, 6, some 0x0, .iw⟩,
     ⟨"RDBAL", 7, 31, none, .rw⟩]⟩),
  /- 982 -/ ("RDBAH", ⟨[(0x1004, 0x40, 63), (0xd004, 0x40, 127)], 32, .rw,
    [⟨"RDBAH", 0, 31, none, .rw⟩]⟩),
  /- 995 -/ ("RDLEN", ⟨[(0x1008, 0x40, 63), (0xd008, 0x40, 127)], 32, .rw,
    [⟨"LEN", 0, 19, some 0x0, .rw⟩]⟩),
  /- 1014 -/ ("RDT", ⟨[(0x1018, 0x40, 63), (0xd018, 0x40, 127)], 32, .rw,
    [⟨"RDT", 0, 15, some 0x0, .rw⟩]⟩),
  /- 1027 -/ ("RXDCTL", ⟨[(0x1028, 0x40, 63), (0xd028, 0x40, 127)], 32, .rw,
    [⟨"ENABLE", 25, 25, some 0x0, .rw⟩,
     ⟨"VME", 30, 30, some 0x0, .rw⟩]⟩),
  /- 1046 -/ ("SRRCTL", ⟨[(0x1014, 0x40, 63), (0xd014, 0x40, 127)], 32, .rw,
    [⟨"BSIZEPACKET", 0, 4, some 0x2, .rw⟩,
     ⟨"BSIZEHEADER", 8, 13, some 0x4, .rw⟩,
     ⟨"RDMTS", 22, 24, some 0x0, .rw⟩,
     ⟨"DESCTYPE", 25, 27, some 0x0, .rw⟩,
     ⟨"Drop_En", 28, 28, some 0x0, .rw⟩]⟩),
  /- 1096 -/ ("PSRTYPE", ⟨[(0xea00, 0x4, 63)], 32, .rw,
    [⟨"PRS_type1", 1, 1, none, .rw⟩,
     ⟨"PRS_type4", 4, 4, none, .rw⟩,
     ⟨"PRS_type5", 5, 5, none, .rw⟩,
     ⟨"PRS_type8", 8, 8, none, .rw⟩,
     ⟨"PRS_type9", 9, 9, none, .rw⟩,
     ⟨"PRS_type12", 12, 12, none, .rw⟩,
     ⟨"RQPL", 29, 31, none, .rw⟩]⟩),
  /- 1133 -/ ("RSCCTL", ⟨[(0x102c, 0x40, 63)], 32, .rw,
    [⟨"RSCEN", 0, 0, some 0x0, .rw⟩,
     ⟨"MAXDESC", 2, 3, some 0x0, .rw⟩]⟩),
  /- 1155 -/ ("DCA_RXCTRL", ⟨[(0x100c, 0x40, 63), (0xd00c, 0x40, 127)], 32, .rw,
    [⟨"Rx Descriptor DCA EN", 5, 5, some 0x0, .rw⟩,
     ⟨"Rx Header DCA EN", 6, 6, some 0x0, .rw⟩,
     ⟨"Rx Payload DCA EN", 7, 7, some 0x0, .rw⟩,
     ⟨"RXdescReadROEn", 9, 9, some 0x1, .rw⟩,
     ⟨"RXdescWBROen", 11, 11, some 0x0, .ro⟩,
     ⟨"Special_Reserved", 12, 12, some 0x1, .rw⟩,
     ⟨"RXdataWriteROEn", 13, 13, some 0x1, .rw⟩,
     ⟨"RxRepHeaderROEn", 15, 15, some 0x1, .rw⟩,
     ⟨"CPUID", 24, 31, some 0x0, .rw⟩]⟩),
  /- 1208 -/ ("SECRXCTRL", ⟨[(0x8d00, 0x0, 0)], 32, .rw,
    [⟨"SECRX_DIS", 0, 0, some 0x1, .rw⟩,
     ⟨"RX_DIS", 1, 1, some 0x0, .rw⟩]⟩),
  /- 1224 -/ ("SECRXSTAT", ⟨[(0x8d04, 0x0, 0)], 32, .ro,
    [⟨"SECRX_RDY", 0, 0, some 0x0, .ro⟩,
     ⟨"SECRX_OFF_DIS", 1, 1, some 0x0, .ro⟩,
     ⟨"ECC_RXERR", 2, 2, some 0x0, .ro⟩]⟩),
  /- 1246 -/ ("CTRL_EXT", ⟨[(0x18, 0x0, 0)], 32, .rw,
    [⟨"PFRSTD (SC)", 14, 14, some 0x0, .rw⟩,
     ⟨"NS_DIS", 16, 16, some 0x0, .rw⟩,
     ⟨"RO_DIS", 17, 17, some 0x0, .rw⟩,
     ⟨"Extended VLAN", 26, 26, some 0x0, .rw⟩,
     ⟨"DRV_LOAD", 28, 28, some 0x0, .rw⟩]⟩),
  /- 1291 -/ ("RXCTRL", ⟨[(0x3000, 0x0, 0)], 32, .rw,
    [⟨"RXEN", 0, 0, some 0x0, .rw⟩,
     ⟨"Reserved", 1, 31, some 0x0, .ro⟩]⟩),
  /- 1309 -/ ("FCTRL", ⟨[(0x5080, 0x0, 0)], 32, .rw,
    [⟨"SBP", 1, 1, some 0x0, .rw⟩,
     ⟨"MPE", 8, 8, some 0x0, .rw⟩,
     ⟨"UPE", 9, 9, some 0x0, .rw⟩,
     ⟨"BAM", 10, 10, some 0x0, .rw⟩]⟩),
  /- 1335 -/ ("MANC", ⟨[(0x5820, 0x0, 0)], 32, .rw,
    [⟨"RCV_TCO_EN", 17, 17, some 0x0, .rw⟩,
     ⟨"RCV_ALL", 19, 19, some 0x0, .rw⟩,
     ⟨"MCST_PASS_L2", 20, 20, some 0x0, .rw⟩,
     ⟨"EN_MNG2HOST", 21, 21, some 0x0, .rw⟩,
     ⟨"Bypass VLAN", 22, 22, some 0x0, .rw⟩,
     ⟨"EN_XSUM_FILTER", 23, 23, some 0x0, .rw⟩,
     ⟨"EN_IPv4_FILTER", 24, 24, some 0x0, .rw⟩,
     ⟨"FIXED_NET_TYPE", 25, 25, some 0x0, .rw⟩,
     ⟨"NET_TYPE", 26, 26, some 0x0, .rw⟩]⟩),
  /- 1379 -/ ("RAL", ⟨[(0xa200, 0x8, 127)], 32, .rw,
    [⟨"RAL", 0, 31, some 0x0, .rw⟩]⟩),
  /- 1391 -/ ("RAH", ⟨[(0xa204, 0x8, 127)], 32, .rw,
    [⟨"RAH", 0, 15, some 0x0, .rw⟩,
     ⟨"Reserved", 16, 30, some 0x0, .ro⟩,
     ⟨"AV", 31, 31, some 0x0, .rw⟩]⟩),
  /- 1415 -/ ("TDT", ⟨[(0x6018, 0x40, 127)], 32, .rw,
    [⟨"TDT", 0, 15, some 0x0, .rw⟩,
     ⟨"Reserved", 16, 31, some 0x0, .ro⟩]⟩)]

/-- spec_reg.py:1435-1601 `pci_regs`. Three fields of PMCSR are meant to be read-only, but their key is 'Access', which is not looked at. -/
def pciRegs : Table := [
  /- 1437 -/ ("ID", ⟨[(0x0, 0x0, 0)], 32, .ro,
    [⟨"Vendor_ID", 0, 15, none, .ro⟩,
     ⟨"Device_ID", 16, 31, none, .ro⟩]⟩),
  /- 1456 -/ ("COMMAND", ⟨[(0x4, 0x0, 0)], 32, .rw,
    [⟨"IO_Access_En", 0, 0, some 0x0, .rw⟩,
     ⟨"Mem_Access_En", 1, 1, some 0x0, .rw⟩,
     ⟨"BME", 2, 2, some 0x0, .rw⟩,
     ⟨"Parity_Err", 6, 6, some 0x0, .rw⟩,
     ⟨"SERR_En", 8, 8, some 0x0, .rw⟩,
     ⟨"Interrupt_Dis", 10, 10, some 0x1, .rw⟩]⟩),
  /- 1489 -/ ("BAR0", ⟨[(0x10, 0x0, 0)], 32, .rw,
    [⟨"Low", 0, 31, none, .rw⟩]⟩),
  /- 1501 -/ ("BAR1", ⟨[(0x14, 0x0, 0)], 32, .rw,
    [⟨"High", 0, 31, none, .rw⟩]⟩),
  /- 1514 -/ ("PMCSR", ⟨[(0x44, 0x0, 0)], 32, .rw,
    [⟨"PowerState", 0, 1, some 0x0, .rw⟩,
     ⟨"No_Soft_Reset", 3, 3, some 0x0, .ro⟩,
     ⟨"PME_En", 8, 8, some 0x0, .rws⟩,
     ⟨"Data_Select", 9, 12, some 0x0, .rw⟩,
     ⟨"Data_Scale", 13, 14, some 0x1, .rw⟩,
     ⟨"PME_Status", 15, 15, some 0x0, .rw1cs⟩,
     ⟨"PMCSR_BSE", 16, 23, some 0x0, .rw⟩,
     ⟨"Data_Register", 24, 31, some 0x0, .rw⟩]⟩),
  /- 1568 -/ ("DEVICE_STATUS", ⟨[(0xaa, 0x0, 0)], 16, .rw1c,
    [⟨"Correctable", 0, 0, some 0x0, .rw1c⟩,
     ⟨"Non-Fatal", 1, 1, some 0x0, .rw1c⟩,
     ⟨"Fatal", 2, 2, some 0x0, .rw1c⟩,
     ⟨"Unsupported_Request", 3, 3, some 0x0, .rw1c⟩,
     ⟨"Aux_Power", 4, 4, some 0x0, .ro⟩,
     ⟨"Transaction_Pending", 5, 5, some 0x0, .ro⟩]⟩)]


/-- The tests of written values, as functions of the value of the field: `lambda bv: True`, `lambda bv: bv[n-1:0] == 0`,
or any other. In spec_act.py:106 and 140 `|` binds tighter than `==`, and the comparisons are chained: the tool
would raise, as the chain asks for the truth of an expression, and here the test fails; either way the write is not accepted. -/
inductive Test where
  | always
  | lowZero (n : Nat)
  | fn (f : Nat → Bool)

def Test.eval : Test → Nat → Bool
  | .always, _ => true
  | .lowZero n, v => v % 2 ^ n == 0
  | .fn f, v => f v

/-- As `Act`, with tests. -/
inductive ActKind where
  | write (name field : String) (test : Test)
  | set (name field : String)
  | clear (name field : String)

def ActKind.toAct : ActKind → Act
  | .write n f t => .write n f t.eval
  | .set n f => .set n f
  | .clear n f => .clear n f

structure ActSpec where
  name : String
  precond : Option Cond
  kind : ActKind
  postcond : List (String × String × Nat)

def ActSpec.toAction (a : ActSpec) : Action := ⟨a.name, a.precond, a.kind.toAct, a.postcond⟩

/-- spec_act.py:4-576 and 578-580 `actions`: a later entry of the same name replaces the earlier one, in its place; the
numbers are the lines where the actions begin. Of "DelaySet" and "DelayClear" nothing is delayed, ast_util.py:97-100. -/
def actionSpecs : List ActSpec := [
  /- 546 -/ ⟨"Program EIMC_0 after global reset", none, .write "EIMC_0" "Interrupt Mask" (.fn (· == 0x7FFFFFFF)), []⟩,
  /- 551 -/ ⟨"Program EIMC_1 after global reset", none, .write "EIMC_1" "Interrupt Mask" (.fn (· == 0xFFFFFFFF)), []⟩,
  /- 556 -/ ⟨"Program EIMC_2 after global reset", none, .write "EIMC_2" "Interrupt Mask" (.fn (· == 0xFFFFFFFF)), []⟩,
  /- 534 -/ ⟨"Program FCRTH", none, .write "FCRTH" "RTH" .always, []⟩,
  /- 511 -/ ⟨"Initiate Software Reset", none, .set "CTRL" "RST", [("CTRL", "RST", 0), ("EEC", "Auto_RD", 1), ("RDRXCTL", "DMAIDONE", 1)]⟩,
  /- 456 -/ ⟨"Disable Rx Queues", none, .clear "RXDCTL" "ENABLE", [("RXDCTL", "ENABLE", 0)]⟩,
  /- 462 -/ ⟨"Disable PCIe Master", some (.not (.reg "RXDCTL" "ENABLE")), .set "CTRL" "PCIe Master Disable", [("STATUS", "PCIe Master Enable Status", 0), ("DEVICE_STATUS", "Transaction_Pending", 0)]⟩,
  /- 478 -/ ⟨"Inhibit data transmission I", some (.and [.reg "STATUS" "PCIe Master Enable Status", .not (.reg "DEVICE_STATUS" "Transaction_Pending")]), .set "HLREG0" "LPBK", []⟩,
  /- 485 -/ ⟨"Inhibit data transmission II", some (.and [.reg "STATUS" "PCIe Master Enable Status", .not (.reg "DEVICE_STATUS" "Transaction_Pending")]), .clear "RXCTRL" "RXEN", []⟩,
  /- 492 -/ ⟨"Flush Internal Buffers", some (.and [.reg "HLREG0" "LPBK", .not (.reg "RXCTRL" "RXEN")]), .set "GRC_EXT" "Buffers_Clear_Func", []⟩,
  /- 499 -/ ⟨"Clear GRC_EXT.Buffers_Clear_Func", none, .clear "GRC_EXT" "Buffers_Clear_Func", []⟩,
  /- 502 -/ ⟨"Clear HLREG0.LPBK", none, .clear "HLREG0" "LPBK", []⟩,
  /- 410 -/ ⟨"Set RTTDCS.ARBDIS", none, .set "RTTDCS" "ARBDIS", []⟩,
  /- 416 -/ ⟨"Program TXPBSIZE", none, .write "TXPBSIZE" "SIZE" (.fn (· == 0)), []⟩,
  /- 421 -/ ⟨"Program TXPBTHRESH", none, .write "TXPBTHRESH" "THRESH" .always, []⟩,
  /- 426 -/ ⟨"Program DTXMXSZRQ", none, .write "DTXMXSZRQ" "Max_bytes_num_req" (.fn (· == 0xfff)), []⟩,
  /- 432 -/ ⟨"Clear RTTDCS.ARBDIS", none, .clear "RTTDCS" "ARBDIS", []⟩,
  /- 264 -/ ⟨"Enable transmit path", none, .set "DMATXCTL" "TE", []⟩,
  /- 446 -/ ⟨"Disable transmit queue", none, .clear "TXDCTL" "ENABLE", []⟩,
  /- 300 -/ ⟨"Program PFUTA", none, .write "PFUTA" "Bit Vector" (.fn (· == 0)), []⟩,
  /- 310 -/ ⟨"Program VLAN Pool Filter VI_En.", none, .clear "PFVLVF" "VI_En", []⟩,
  /- 313 -/ ⟨"Program VLAN Pool Filter VLAN_Id", none, .write "PFVLVF" "VLAN_Id" .always, []⟩,
  /- 319 -/ ⟨"Program  MAC Pool Select Array", none, .write "MPSAR" "POOL_ENA" .always, []⟩,
  /- 325 -/ ⟨"Program VLAN Pool Filter Bitmap.", none, .write "PFVLVFB" "POOL_ENA" .always, []⟩,
  /- 335 -/ ⟨"Program Multicast Table Array.", none, .write "MTA" "Bit Vector" (.fn fun v => v == 0 || v == 1), []⟩,
  /- 349 -/ ⟨"Program FTQF", none, .clear "FTQF" "Queue Enable", []⟩,
  /- 352 -/ ⟨"Program RDRXCTL I", none, .set "RDRXCTL" "CRCStrip", []⟩,
  /- 355 -/ ⟨"Program RDRXCTL II", none, .write "RDRXCTL" "RSCFRSTSIZE" (.fn (· == 0)), []⟩,
  /- 362 -/ ⟨"Program RDRXCTL III", none, .set "RDRXCTL" "RSCACKC", []⟩,
  /- 365 -/ ⟨"Program RDRXCTL IV", none, .set "RDRXCTL" "FCOE_WRFIX", []⟩,
  /- 370 -/ ⟨"Program RXPBSIZE", none, .write "RXPBSIZE" "SIZE" (.fn fun v => v == 0x200 || v == 0), []⟩,
  /- 376 -/ ⟨"Program MFLCN.RFCE", none, .set "MFLCN" "RFCE", []⟩,
  /- 380 -/ ⟨"Program FCCFG.TFCE", none, .write "FCCFG" "TFCE" (.fn (· == 1)), []⟩,
  /- 387 -/ ⟨"Program RTTDQSEL.TXDQ_IDX", none, .write "RTTDQSEL" "TXDQ_IDX" .always, []⟩,
  /- 392 -/ ⟨"Program RTTDT1C.CRQ", none, .write "RTTDT1C" "CRQ" .always, []⟩,
  /- 281 -/ ⟨"Enable Bus Master", none, .set "COMMAND" "BME", []⟩,
  /- 284 -/ ⟨"Enable Memory Reads", none, .set "COMMAND" "Mem_Access_En", []⟩,
  /- 287 -/ ⟨"Disable Interrupts", none, .set "COMMAND" "Interrupt_Dis", []⟩,
  /- 8 -/ ⟨"Disable Receive", some (.reg "RXCTRL" "RXEN"), .clear "RXCTRL" "RXEN", []⟩,
  /- 12 -/ ⟨"Enable Receive", some (.not (.reg "RXCTRL" "RXEN")), .set "RXCTRL" "RXEN", []⟩,
  /- 20 -/ ⟨"Set Unicast Filtering", some (.not (.reg "RXCTRL" "RXEN")), .set "FCTRL" "UPE", []⟩,
  /- 24 -/ ⟨"Set Multicast Filtering", some (.not (.reg "RXCTRL" "RXEN")), .set "FCTRL" "MPE", []⟩,
  /- 28 -/ ⟨"Set Broadcast Filtering", some (.not (.reg "RXCTRL" "RXEN")), .set "FCTRL" "BAM", []⟩,
  /- 45 -/ ⟨"Program RDBAH", none, .write "RDBAH" "RDBAH" .always, []⟩,
  /- 54 -/ ⟨"Program RDBAL", none, .write "RDBAL" "RDBAL" .always, []⟩,
  /- 63 -/ ⟨"Program RDLEN", none, .write "RDLEN" "LEN" (.fn fun v => v % 2 ^ 8 == 0 && v / 2 ^ 18 % 2 ^ 2 == 0), []⟩,
  /- 75 -/ ⟨"Program Receive Buffer Size for Packet Buffer.", none, .write "SRRCTL" "BSIZEPACKET" (.fn fun v => 1 ≤ v && v ≤ 16), []⟩,
  /- 85 -/ ⟨"Program Receive Buffer Size for Header Buffer.", none, .write "SRRCTL" "BSIZEHEADER" (.fn fun v => 1 ≤ v && v ≤ 16), []⟩,
  /- 97 -/ ⟨"Program Receive Descriptor Minimum Threshold Size.", none, .write "SRRCTL" "RDMTS" .always, []⟩,
  /- 102 -/ ⟨"Program Descriptor Type.", none, .write "SRRCTL" "DESCTYPE" (.fn fun v => v == 0 ||| v && 0 ||| v == 1 ||| v && 1 ||| v == 2 ||| v && 2 ||| v == 5), []⟩,
  /- 109 -/ ⟨"Disable Drop", none, .clear "SRRCTL" "Drop_En", []⟩,
  /- 112 -/ ⟨"Enable Drop", none, .set "SRRCTL" "Drop_En", []⟩,
  /- 117 -/ ⟨"Enable Split NFS header", none, .set "PRSTYPE" "PSR_type1", []⟩,
  /- 120 -/ ⟨"Enable Split TCP header", none, .set "PRSTYPE" "PSR_type4", []⟩,
  /- 123 -/ ⟨"Enable Split UDP header", none, .set "PRSTYPE" "PSR_type5", []⟩,
  /- 126 -/ ⟨"Enable Split IPv4 header", none, .set "PRSTYPE" "PSR_type8", []⟩,
  /- 129 -/ ⟨"Enable Split IPv6 header", none, .set "PRSTYPE" "PSR_type9", []⟩,
  /- 132 -/ ⟨"Enable Split L2 header", none, .set "PRSTYPE" "PSR_type12", []⟩,
  /- 135 -/ ⟨"Set RSS redirection bits", none, .write "PRSTYPE" "RQPL" (.fn fun v => v == 0 ||| v && 0 ||| v == 2 ||| v && 2 ||| v == 1), []⟩,
  /- 145 -/ ⟨"Enable RSC", none, .set "RSCCTL" "RSCEN", []⟩,
  /- 150 -/ ⟨"Enable Receive Queue Enable", none, .set "RXDCTL" "ENABLE", [("RXDCTL", "ENABLE", 1)]⟩,
  /- 158 -/ ⟨"Bump Receive Tail Pointer", some (.reg "RXDCTL" "ENABLE"), .write "RDT" "RDT" .always, []⟩,
  /- 172 -/ ⟨"Halt the receive data path", none, .set "SECRXCTRL" "RX_DIS", [("SECRXSTAT", "SECRX_RDY", 1)]⟩,
  /- 180 -/ ⟨"Set RXCTRL.RXEN", some (.reg "SECRXSTAT" "SECRX_RDY"), .set "RXCTRL" "RXEN", []⟩,
  /- 185 -/ ⟨"Enable the receive data path", some (.reg "RXCTRL" "RXEN"), .clear "SECRXCTRL" "RX_DIS", []⟩,
  /- 191 -/ ⟨"Set No Snoop Disable", none, .set "CTRL_EXT" "NS_DIS", []⟩,
  /- 195 -/ ⟨"Clear bit 12 of DCA_RXCTRL", none, .clear "DCA_RXCTRL" "Special_Reserved", []⟩,
  /- 201 -/ ⟨"Program TDBAL", none, .write "TDBAL" "TDBAL" .always, []⟩,
  /- 206 -/ ⟨"Program TDBAH", none, .write "TDBAH" "TDBAH" .always, []⟩,
  /- 213 -/ ⟨"Program TDLEN", none, .write "TDLEN" "LEN" (.fn fun v => v % 2 ^ 8 == 0 && v / 2 ^ 18 % 2 ^ 2 == 0), []⟩,
  /- 223 -/ ⟨"Program PTHRESH", none, .write "TXDCTL" "PTHRESH" .always, []⟩,
  /- 230 -/ ⟨"Program HTHRESH", none, .write "TXDCTL" "HTHRESH" .always, []⟩,
  /- 246 -/ ⟨"Program TDWBAL", none, .write "TDWBAL" "HeadWB_Low" (.lowZero 2), []⟩,
  /- 243 -/ ⟨"Set Head Write-Back Enable", none, .set "TDWBAL" "Head_WB_En", []⟩,
  /- 253 -/ ⟨"Program TDWBAH", none, .write "TDWBAH" "HeadWB_High" .always, []⟩,
  /- 258 -/ ⟨"Disable relaxed ordering of head pointer", none, .clear "DCA_TXCTRL" "TXdescWBROen", []⟩,
  /- 272 -/ ⟨"Enable transmit queue", none, .set "TXDCTL" "ENABLE", [("TXDCTL", "ENABLE", 1)]⟩,
  /- 572 -/ ⟨"Bump Transmit Tail Pointer", some (.reg "TXDCTL" "ENABLE"), .write "TDT" "TDT" .always, []⟩]


/-- The table that the code uses. -/
def actions : List Action := actionSpecs.map ActSpec.toAction

/-- reg_util.py:65-71 `get_pci_reg`; all entries of the table have multiplier 0. -/
def getPciReg (t : Table) (a : Nat) : Option (String × Reg) := t.find? fun r => match r.2.addr with
  | [] => false
  | (b, _, _) :: _ => b == a

/-- pci.py:26-32 `pci_read`, of externals/os, given the device. -/
def pciRead (c : Ctx) (d : Device) (a : Nat) : Option (Val × Device) :=
  match getPciReg c.pci a with
  | none => none
  | some (name, r) => (fetch c.freshPci true d.pci name 0 r).map fun x => (x.1, { d with pci := x.2 })

/-- pci.py:34-45 `pci_write`, of externals/os, given the device. -/
noncomputable def pciWrite (c : Ctx) (trivially : Val → Val → Bool) (d : Device) (a : Nat) (value : Val) : Option Device :=
  match getPciReg c.pci a with
  | none => none
  | some (name, r) =>
    match fetch c.freshPci true d.pci name 0 r with
    | none => none
    | some (old, st) =>
      match findFields trivially old value r.fields with
      | none => none
      | some fields =>
        match checkAccess r fields with
        | none => none
        | some fields =>
          match verifyWrite c actions name 0 { d with pci := st } fields with
          | none => none
          | some d => some { d with pci := update d.pci name 0 r value }

/-- An access of the driver to the card. `modify` reads a register and writes it with the bits of `mask` replaced by those
of `new`, and `expect` reads a field that must be cleared, or not, for the driver to go on: ixgbe.c:427-446 `reg_write_field`, `reg_clear_field`, `reg_set_field`, and ixgbe.c:463-469 `pcireg_set_field`. -/
inductive Op where
  | read (addr : Nat)
  | expect (addr : Nat) (field : BitVec 32) (cleared : Bool)
  | write (addr : Nat) (value : Val)
  | modify (addr : Nat) (mask new : BitVec 32)
  | pciRead (addr : Nat)
  | pciModify (addr : Nat) (mask new : BitVec 32)

/-- `(x & ~mask) | new`. -/
def replace (mask new : BitVec 32) (x : Nat) : Nat := (BitVec.ofNat 32 x &&& ~~~mask ||| new).toNat

def modified (mask new : BitVec 32) : Val → Val
  | .bvv w v => .bvv w (replace mask new (v % 2 ^ w))
  | .sym w f => .sym w fun ρ => replace mask new (f ρ % 2 ^ w)

/-- device.py:50-58 `device_reader`, of an address. -/
def read (c : Ctx) (d : Device) (a : Nat) : Option (Val × Device) :=
  match findReg c.regs a with
  | none => none
  | some (name, i) =>
    match c.regs.get name with
    | none => none
    | some r => (fetch c.fresh d.useInit d.regs name i r).map fun x => (x.1, { d with regs := x.2 })

/-- device.py:60-79 `device_writer`, of an address; sending packets, lines 81-97, is left out. -/
noncomputable def writeAt (c : Ctx) (trivially : Val → Val → Bool) (d : Device) (a : Nat) (value : Val) : Option Device :=
  match findReg c.regs a with
  | none => none
  | some (name, i) => write c trivially actions d name i value

/-- One access. If a field is not definitely as expected, the tool also explores what the driver does then, which is to give up
or, where it stops the card, to flush its buffers; these paths are not followed here, and there is no result. -/
noncomputable def step (c : Ctx) (trivially : Val → Val → Bool) (d : Device) : Op → Option Device
  | .read a => (read c d a).map (·.2)
  | .expect a f b =>
    match read c d a with
    | none => none
    | some (v, d) => if definitely c (fun ρ => (BitVec.ofNat 32 (v.den ρ) &&& f == 0#32) = b) then some d else none
  | .write a v => writeAt c trivially d a v
  | .modify a m n =>
    match read c d a with
    | none => none
    | some (v, d) => writeAt c trivially d a (modified m n v)
  | .pciRead a => (pciRead c d a).map (·.2)
  | .pciModify a m n =>
    match pciRead c d a with
    | none => none
    | some (v, d) => pciWrite c trivially d a (modified m n v)

/-- Accesses one after the other, each with the path constraints at that time. -/
noncomputable def run (c : Ctx) (trivially : Val → Val → Bool) : Device → List (Op × (Env → Prop)) → Option Device
  | d, [] => some d
  | d, (o, con) :: l =>
    match step { c with constraints := con } trivially d o with
    | none => none
    | some d => run c trivially d l

section Driver
open Verif.IxgbeDevice

/-- The value `v`. -/
def const (v : BitVec 32) : Val := .bvv 32 v.toNat

/-- `reg_set_field`. -/
def setBits (addr : Nat) (field : BitVec 32) : Op := .modify addr field field

/-- `reg_clear_field`. -/
def clearBits (addr : Nat) (field : BitVec 32) : Op := .modify addr field 0#32

/-- ixgbe.c:483-517: the accesses to the PCI configuration. -/
def pciOps : List Op :=
  [.pciRead 0x00, .pciRead 0x44, .pciModify 0x04 (bit 2) (bit 2), .pciModify 0x04 (bit 1) (bit 1), .pciModify 0x04 (bit 10) (bit 10),
   .pciRead 0x10, .pciRead 0x14]

/-- ixgbe.c:540-550, for one queue. Where the driver polls a field it is read once, here and below, and must be as the driver expects at once. -/
def disableOps (queue : Nat) : List Op := [clearBits (RXDCTL queue) (bit 25), .expect (RXDCTL queue) (bit 25) true]

/-- ixgbe.c:551-558. -/
def stopOps : List Op := [setBits CTRL (bit 2), .expect STATUS (bit 19) true]

/-- ixgbe.c:589-596. -/
def resetOps : List Op := [setBits CTRL (bit 26)]

/-- ixgbe.c:600-644. The second read of EEC is that of a field that the tool knows nothing about; the driver goes on if it is set. -/
def waitOps : List Op :=
  [.write (EIMC 0) (const 0x7FFFFFFF#32), .write (EIMC 1) (const 0xFFFFFFFF#32), .write (EIMC 2) (const 0xFFFFFFFF#32),
   .modify (FCRTH 0) (bits 5 18) (((512#32 * 1024#32 - 0x6000#32) / 32#32) <<< 5),
   .expect EEC (bit 9) false, .read EEC, .expect FWSM (bits 19 24) true, .expect RDRXCTL (bit 3) false]

/-- ixgbe.c:669-760. -/
def filterOps : List Op :=
  (List.range 128).map (fun n => .write (PFUTA n) (const 0#32)) ++
  (List.range 64).map (fun n => .write (PFVLVF n) (const 0#32)) ++
  [.write (MPSAR 0) (const 1#32)] ++
  (List.range' 1 255).map (fun n => .write (MPSAR n) (const 0#32)) ++
  (List.range 128).map (fun n => .write (PFVLVFB n) (const 0#32)) ++
  (List.range 128).map (fun n => .write (MTA n) (const 0#32)) ++
  (List.range 128).map (fun n => clearBits (FTQF n) (bit 31))

/-- ixgbe.c:770-822. -/
def receiveOps : List Op :=
  [setBits RDRXCTL (bit 1), clearBits RDRXCTL (bits 17 21), setBits RDRXCTL (bit 25), setBits RDRXCTL (bit 26)] ++
  (List.range' 1 7).map (fun n => .write (RXPBSIZE n) (const 0#32)) ++
  [setBits MFLCN (bit 3), .modify FCCFG (bits 3 4) (1#32 <<< 3)] ++
  (List.range 128).flatMap fun n => [.write RTTDQSEL (const (BitVec.ofNat 32 n)), .write RTTDT1C (const 0#32)]

/-- ixgbe.c:878-910. -/
def transmitOps : List Op :=
  [setBits RTTDCS (bit 6)] ++
  (List.range' 1 7).map (fun n => .write (TXPBSIZE n) (const 0#32)) ++
  [.modify (TXPBTHRESH 0) (bits 0 9) (0xA0#32 - 2048#32 / 1024#32), .modify DTXMXSZRQ (bits 0 11) 0xFFF#32, clearBits RTTDCS (bit 6)]

/-- ixgbe.c:475-915 `tn_device_init`. -/
def initOps : List Op :=
  pciOps ++ (List.range 128).flatMap disableOps ++ stopOps ++ resetOps ++ waitOps ++ filterOps ++ receiveOps ++ transmitOps

/-- ixgbe.c:921-942 `tn_device_set_promiscuous`, of a device that does not receive yet. -/
def promiscuousOps : List Op := [.expect RXCTRL (bit 0) true, setBits FCTRL (bit 9), setBits FCTRL (bit 8)]

/-- ixgbe.c:944-949 `tn_device_get_mac`. -/
def macOps : List Op := [.read (RAL 0), .read (RAH 0)]

/-- What agents do with the device: send to it with a queue, given the addresses of the ring and of the head, which may depend on
symbols; receive from it, given the address of the ring; and, once it is set up, announce packets to send or to receive. -/
inductive Use where
  | output (queue : Nat) (ring head : Env → Nat)
  | input (ring : Env → Nat)
  | sendTail (queue : Nat) (tail : Val)
  | receiveTail (tail : Val)

/-- ixgbe.c:961-1044 `tn_agent_add_output`; `first` is whether the device does not send yet. -/
def outputOps (first : Bool) (queue : Nat) (ring head : Env → Nat) : List Op :=
  [.expect (IxgbeSetup.TXDCTL queue) (bit 25) true,
   .write (IxgbeSetup.TDBAH queue) (.sym 32 fun ρ => ring ρ / 2 ^ 32), .write (IxgbeSetup.TDBAL queue) (.sym 32 ring),
   .write (IxgbeSetup.TDLEN queue) (const (256#32 * 16#32)),
   .modify (IxgbeSetup.TXDCTL queue) (bits 0 6) 60#32, .modify (IxgbeSetup.TXDCTL queue) (bits 8 14) (4#32 <<< 8),
   .write (IxgbeSetup.TDWBAH queue) (.sym 32 fun ρ => head ρ / 2 ^ 32), .write (IxgbeSetup.TDWBAL queue) (.sym 32 fun ρ => head ρ ||| 1),
   clearBits (IxgbeSetup.DCATXCTRL queue) (bit 11)] ++
  (if first then [setBits IxgbeSetup.DMATXCTL (bit 0)] else []) ++
  [setBits (IxgbeSetup.TXDCTL queue) (bit 25), .expect (IxgbeSetup.TXDCTL queue) (bit 25) false]

/-- ixgbe.c:1050-1134 `tn_agent_set_input`, of a device that does not receive yet. -/
def inputOps (ring : Env → Nat) : List Op :=
  [.expect IxgbeSetup.RXDCTL (bit 25) true,
   .write IxgbeSetup.RDBAH (.sym 32 fun ρ => ring ρ / 2 ^ 32), .write IxgbeSetup.RDBAL (.sym 32 ring),
   .write IxgbeSetup.RDLEN (const (256#32 * 16#32)), .modify IxgbeSetup.SRRCTL (bits 0 4) 2#32, setBits IxgbeSetup.SRRCTL (bit 28),
   setBits IxgbeSetup.RXDCTL (bit 25), .expect IxgbeSetup.RXDCTL (bit 25) false, .write IxgbeSetup.RDT (const 255#32),
   setBits IxgbeSetup.SECRXCTRL (bit 1), .expect IxgbeSetup.SECRXSTAT (bit 0) false, setBits IxgbeSetup.RXCTRL (bit 0),
   clearBits IxgbeSetup.SECRXCTRL (bit 1), setBits IxgbeSetup.CTRLEXT (bit 16), clearBits IxgbeSetup.DCARXCTRL (bit 12)]

/-- All uses of a device in order; `sends` is whether it sends already (`tx_enabled`). The tails are written in ixgbe.c:1255 and 1260. -/
def useOps : Bool → List Use → List Op
  | _, [] => []
  | sends, .output q ring head :: us => outputOps (!sends) q ring head ++ useOps true us
  | sends, .input ring :: us => inputOps ring ++ useOps sends us
  | sends, .sendTail q v :: us => .write (IxgbeSetup.TDT q) v :: useOps sends us
  | sends, .receiveTail v :: us => .write IxgbeSetup.RDT v :: useOps sends us

/-- main.c:82-97: all that happens to a device. -/
def driverOps (us : List Use) : List Op := initOps ++ promiscuousOps ++ macOps ++ useOps false us

end Driver

/-- device.py:100-124 `spec_device_create_default`, the device that line 124 would return: no register has a value yet but two of the PCI configuration. -/
def fresh (bar0 bar1 : Val) : Device :=
  ⟨fun _ _ => none, fun n i => if i = 0 then (if n = "BAR0" then some bar0 else if n = "BAR1" then some bar1 else none) else none, false, none, 0, []⟩

end Verif.Tool.CardSpec
